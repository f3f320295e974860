import Mathlib.Analysis.Calculus.Deriv.MeanValue
import Mathlib.Analysis.Calculus.Deriv.Polynomial
import Mathlib.Algebra.Polynomial.Derivative
import Mathlib.Algebra.Polynomial.Roots
import Mathlib.Data.Real.Basic
import Mathlib.Tactic.Linarith
import Mathlib.Tactic.Ring
import Mathlib.Order.Interval.Set.Infinite

/-!
Zeros of smooth piecewise polynomials (the Schoenberg–Whitney theorem), used for the splines of /repo/src/MathUtils/Spline.h.
Nothing here models code: pure mathematics on polynomials.
-/

set_option linter.unusedSectionVars false

namespace MU
namespace SW

open Polynomial

/-- `x` lies in the closed interval number `k` of the break points `ξ`. -/
def In (ξ : ℕ → ℝ) (k : ℕ) (x : ℝ) : Prop := ξ k ≤ x ∧ x ≤ ξ (k + 1)

/-- The pieces agree at the break points. -/
def Joined (ξ : ℕ → ℝ) (m : ℕ) (Q : ℕ → ℝ[X]) : Prop :=
  ∀ j, j + 1 < m → (Q j).eval (ξ (j + 1)) = (Q (j + 1)).eval (ξ (j + 1))

variable {ξ : ℕ → ℝ} {m a b : ℕ} {Q : ℕ → ℝ[X]}

theorem xi_le (hξ : ∀ j < m, ξ j < ξ (j + 1)) {i j : ℕ} (hij : i ≤ j) (hj : j ≤ m) : ξ i ≤ ξ j := by
  induction j, hij using Nat.le_induction with
  | base => exact le_rfl
  | succ j hij ih => exact (ih (by omega)).trans (hξ j (by omega)).le

theorem xi_lt (hξ : ∀ j < m, ξ j < ξ (j + 1)) {i j : ℕ} (hij : i < j) (hj : j ≤ m) : ξ i < ξ j :=
  (hξ i (by omega)).trans_le (xi_le hξ (i := i + 1) hij hj)

theorem in_mono (hξ : ∀ j < m, ξ j < ξ (j + 1)) {k k' : ℕ} {x x' : ℝ} (hk : k < m) (h : In ξ k x) (h' : In ξ k' x')
    (hx : x < x') : k ≤ k' := by
  by_contra hc
  have := xi_le hξ (i := k' + 1) (j := k) (by omega) hk.le
  have h1 := h.1
  have h2 := h'.2
  linarith

/-- The mean value theorem for one polynomial, with a factor. -/
theorem poly_mvt (P : ℝ[X]) (e : ℝ) {x y : ℝ} (hxy : x < y) (h : e * P.eval x < e * P.eval y) :
    ∃ z, x < z ∧ z < y ∧ 0 < e * (derivative P).eval z := by
  obtain ⟨z, hz, hd⟩ := exists_deriv_eq_slope (fun u => P.eval u) hxy P.differentiable.continuous.continuousOn
    (P.differentiable.differentiableOn)
  refine ⟨z, hz.1, hz.2, ?_⟩
  have h1 : deriv (fun u => P.eval u) z = (derivative P).eval z := P.deriv
  rw [h1] at hd
  rw [hd, ← mul_div_assoc]
  apply div_pos _ (by linarith)
  nlinarith

/-- The mean value theorem across pieces. -/
theorem pw_mvt (hξ : ∀ j < m, ξ j < ξ (j + 1)) (hQ : Joined ξ m Q) (e : ℝ) {j : ℕ} {y : ℝ} (hj : j < m) (hy : In ξ j y) :
    ∀ (d i : ℕ) (x : ℝ), i + d = j → In ξ i x → x < y → e * (Q i).eval x < e * (Q j).eval y →
    ∃ k z, i ≤ k ∧ k ≤ j ∧ In ξ k z ∧ x < z ∧ z < y ∧ 0 < e * (derivative (Q k)).eval z := by
  intro d
  induction d with
  | zero =>
    intro i x hij hx hxy h
    have : i = j := by omega
    subst this
    obtain ⟨z, h1, h2, h3⟩ := poly_mvt (Q i) e hxy h
    exact ⟨i, z, le_rfl, le_rfl, ⟨hx.1.trans h1.le, h2.le.trans hy.2⟩, h1, h2, h3⟩
  | succ d ih =>
    intro i x hij hx hxy h
    have hw := hQ i (by omega)
    have hle : ξ (i + 1) ≤ y := (xi_le hξ (i := i + 1) (j := j) (by omega) hj.le).trans hy.1
    rcases lt_or_ge (e * (Q i).eval x) (e * (Q i).eval (ξ (i + 1))) with h1 | h1
    · have hlt : x < ξ (i + 1) := by
        rcases lt_or_eq_of_le hx.2 with h2 | h2
        · exact h2
        · rw [h2] at h1; exact absurd h1 (lt_irrefl _)
      obtain ⟨z, h2, h3, h4⟩ := poly_mvt (Q i) e hlt h1
      exact ⟨i, z, le_rfl, by omega, ⟨hx.1.trans h2.le, h3.le⟩, h2, h3.trans_le hle, h4⟩
    · have h2 : e * (Q (i + 1)).eval (ξ (i + 1)) < e * (Q j).eval y := by rw [← hw]; linarith
      have hlt : ξ (i + 1) < y := by
        rcases lt_or_eq_of_le hle with h3 | h3
        · exact h3
        · exfalso
          have : i + 1 = j := by
            by_contra hc
            have := xi_lt hξ (i := i + 1) (j := j) (by omega) hj.le
            have := hy.1
            linarith
          rw [this, ← h3, this] at h2
          exact lt_irrefl _ h2
      obtain ⟨k, z, h3, h4, h5, h6, h7, h8⟩ := ih (i + 1) (ξ (i + 1)) (by omega) ⟨le_rfl, (hξ _ (by omega)).le⟩ hlt h2
      exact ⟨k, z, by omega, h4, h5, hx.2.trans_lt h6, h7, h8⟩

theorem pw_mvt' (hξ : ∀ j < m, ξ j < ξ (j + 1)) (hQ : Joined ξ m Q) (e : ℝ) {i j : ℕ} {x y : ℝ} (hi : i < m) (hj : j < m)
    (hx : In ξ i x) (hy : In ξ j y) (hxy : x < y) (h : e * (Q i).eval x < e * (Q j).eval y) :
    ∃ k z, i ≤ k ∧ k ≤ j ∧ In ξ k z ∧ x < z ∧ z < y ∧ 0 < e * (derivative (Q k)).eval z := by
  have hij := in_mono hξ hi hx hy hxy
  exact pw_mvt hξ hQ e hj hy (j - i) i x (by omega) hx hxy h

/-- The pieces `a ≤ k < b` take values of alternating signs at `q + 1` increasing points, the last of which is `x`, in piece `k`,
with a value of the sign of `e`. -/
inductive Chain (ξ : ℕ → ℝ) (a b : ℕ) (Q : ℕ → ℝ[X]) : ℕ → ℕ → ℝ → ℝ → Prop
  | start {k x e} : a ≤ k → k < b → In ξ k x → (e = 1 ∨ e = -1) → 0 < e * (Q k).eval x → Chain ξ a b Q 0 k x e
  | snoc {q k x e k' x'} : Chain ξ a b Q q k x e → k' < b → In ξ k' x' → x < x' → 0 < -e * (Q k').eval x' →
      Chain ξ a b Q (q + 1) k' x' (-e)

namespace Chain

theorem mem {q k : ℕ} {x e : ℝ} (h : Chain ξ a b Q q k x e) (hξ : ∀ j < m, ξ j < ξ (j + 1)) (hb : b ≤ m) :
    a ≤ k ∧ k < b ∧ In ξ k x ∧ (e = 1 ∨ e = -1) ∧ 0 < e * (Q k).eval x := by
  induction h with
  | start h1 h2 h3 h4 h5 => exact ⟨h1, h2, h3, h4, h5⟩
  | snoc _ h2 h3 h4 h5 ih =>
    obtain ⟨i1, i2, i3, i4, _⟩ := ih
    refine ⟨i1.trans (in_mono hξ (by omega) i3 h3 h4), h2, h3, ?_, h5⟩
    rcases i4 with h | h <;> simp [h]

/-- Between two points of a chain the derivative takes a value of the sign of the later one. -/
theorem derive {q k : ℕ} {x e : ℝ} (h : Chain ξ a b Q (q + 1) k x e) (hξ : ∀ j < m, ξ j < ξ (j + 1)) (hb : b ≤ m)
    (hQ : Joined ξ m Q) : ∃ k' x', x' < x ∧ Chain ξ a b (fun i => derivative (Q i)) q k' x' e := by
  induction q generalizing k x e with
  | zero =>
    cases h with
    | @snoc _ k0 x0 e0 _ _ h1 h2 h3 h4 h5 =>
      obtain ⟨i1, i2, i3, i4, i5⟩ := h1.mem hξ hb
      obtain ⟨k, z, g1, g2, g3, g4, g5, g6⟩ := pw_mvt' hξ hQ (-e0) (by omega) (by omega) i3 h3 h4 (by linarith)
      exact ⟨k, z, g5, .start (by omega) (by omega) g3 (by rcases i4 with h | h <;> simp [h]) g6⟩
  | succ q ih =>
    cases h with
    | @snoc _ k0 x0 e0 _ _ h1 h2 h3 h4 h5 =>
      obtain ⟨i1, i2, i3, i4, i5⟩ := h1.mem hξ hb
      obtain ⟨k, z, g1, g2, g3, g4, g5, g6⟩ := pw_mvt' hξ hQ (-e0) (by omega) (by omega) i3 h3 h4 (by linarith)
      obtain ⟨k', x', j1, j2⟩ := ih h1
      exact ⟨k, z, g5, .snoc j2 (by omega) g3 (j1.trans g4) g6⟩

/-- The same when the pieces vanish at the left end: no value is lost. -/
theorem deriveL {q k : ℕ} {x e : ℝ} (h : Chain ξ a b Q q k x e) (hξ : ∀ j < m, ξ j < ξ (j + 1)) (hb : b ≤ m)
    (hQ : Joined ξ m Q) (hL : (Q a).eval (ξ a) = 0) :
    ∃ k' x', x' < x ∧ Chain ξ a b (fun i => derivative (Q i)) q k' x' e := by
  induction q generalizing k x e with
  | zero =>
    cases h with
    | start h1 h2 h3 h4 h5 =>
      have hlt : ξ a < x := by
        rcases lt_or_eq_of_le ((xi_le hξ h1 (by omega)).trans h3.1) with h | h
        · exact h
        · exfalso
          have : a = k := by
            by_contra hc
            have := xi_lt hξ (i := a) (j := k) (by omega) (by omega)
            have := h3.1
            linarith
          rw [← this, ← h, hL] at h5
          simp at h5
      obtain ⟨k, z, g1, g2, g3, g4, g5, g6⟩ := pw_mvt' hξ hQ e (i := a) (by omega) (by omega)
        ⟨le_rfl, (hξ a (by omega)).le⟩ h3 hlt (by rw [hL]; linarith)
      exact ⟨k, z, g5, .start (by omega) (by omega) g3 h4 g6⟩
  | succ q ih =>
    cases h with
    | @snoc _ k0 x0 e0 _ _ h1 h2 h3 h4 h5 =>
      obtain ⟨i1, i2, i3, i4, i5⟩ := h1.mem hξ hb
      obtain ⟨k, z, g1, g2, g3, g4, g5, g6⟩ := pw_mvt' hξ hQ (-e0) (by omega) (by omega) i3 h3 h4 (by linarith)
      obtain ⟨k', x', j1, j2⟩ := ih h1
      exact ⟨k, z, g5, .snoc j2 (by omega) g3 (j1.trans g4) g6⟩

/-- When the pieces vanish at the right end one more value is found. -/
theorem deriveR {q r k k' : ℕ} {x x' e : ℝ} (h : Chain ξ a b Q q k x e) (hξ : ∀ j < m, ξ j < ξ (j + 1)) (hb : b ≤ m)
    (hQ : Joined ξ m Q) (hR : (Q (b - 1)).eval (ξ b) = 0) (hx : x' < x)
    (h' : Chain ξ a b (fun i => derivative (Q i)) r k' x' e) :
    ∃ k'' x'', Chain ξ a b (fun i => derivative (Q i)) (r + 1) k'' x'' (-e) := by
  obtain ⟨i1, i2, i3, i4, i5⟩ := h.mem hξ hb
  have hb1 : b - 1 + 1 = b := by omega
  have hlt : x < ξ b := by
    rcases lt_or_eq_of_le (i3.2.trans (xi_le hξ (i := k + 1) (j := b) (by omega) hb)) with h | h
    · exact h
    · exfalso
      have : k = b - 1 := by
        by_contra hc
        have := xi_lt hξ (i := k + 1) (j := b) (by omega) (by omega)
        have := i3.2
        linarith
      rw [this, h, hR] at i5
      simp at i5
  have hR' : In ξ (b - 1) (ξ b) := ⟨xi_le hξ (by omega) hb, by rw [hb1]⟩
  obtain ⟨k, z, g1, g2, g3, g4, g5, g6⟩ := pw_mvt' hξ hQ (-e) (by omega) (by omega) i3 hR' hlt (by rw [hR]; linarith)
  exact ⟨k, z, .snoc h' (by omega) g3 (hx.trans g4) g6⟩

/-- Constant pieces: every sign change needs a new piece. -/
theorem const_bound {q k : ℕ} {x e : ℝ} (h : Chain ξ a b Q q k x e) (hξ : ∀ j < m, ξ j < ξ (j + 1)) (hb : b ≤ m)
    (hc : ∀ k < m, (Q k).natDegree = 0) : a + q ≤ k := by
  induction h with
  | start h1 => exact h1
  | @snoc q k x e k' x' h1 h2 h3 h4 h5 ih =>
    obtain ⟨i1, i2, i3, i4, i5⟩ := h1.mem hξ hb
    have hle := in_mono hξ (by omega) i3 h3 h4
    have hne : k ≠ k' := by
      intro hk
      subst hk
      rw [eq_C_of_natDegree_eq_zero (hc k (by omega)), eval_C] at h5 i5
      linarith
    omega

end Chain

/-- `N + 1` increasing zeros in the pieces `a ≤ k < b`, the last being `z`, in piece `k`. -/
inductive Zeros (ξ : ℕ → ℝ) (a b : ℕ) (Q : ℕ → ℝ[X]) : ℕ → ℕ → ℝ → Prop
  | start {k z} : a ≤ k → k < b → In ξ k z → (Q k).eval z = 0 → Zeros ξ a b Q 0 k z
  | snoc {N k z k' z'} : Zeros ξ a b Q N k z → k' < b → In ξ k' z' → z < z' → (Q k').eval z' = 0 → Zeros ξ a b Q (N + 1) k' z'

theorem Zeros.mem {N k : ℕ} {z : ℝ} (h : Zeros ξ a b Q N k z) (hξ : ∀ j < m, ξ j < ξ (j + 1)) (hb : b ≤ m) :
    a ≤ k ∧ k < b ∧ In ξ k z ∧ (Q k).eval z = 0 := by
  induction h with
  | start h1 h2 h3 h4 => exact ⟨h1, h2, h3, h4⟩
  | snoc _ h2 h3 h4 h5 ih =>
    obtain ⟨i1, i2, i3, _⟩ := ih
    exact ⟨i1.trans (in_mono hξ (by omega) i3 h3 h4), h2, h3, h5⟩

/-- A non-zero polynomial takes a non-zero value in every interval. -/
theorem exists_ne {P : ℝ[X]} (hP : P ≠ 0) {x y : ℝ} (hxy : x < y) : ∃ z, x < z ∧ z < y ∧ P.eval z ≠ 0 := by
  by_contra hc
  push Not at hc
  exact (Set.Ioo_infinite hxy) (P.rootSet_finite ℝ |>.subset (fun z hz => by
    rw [mem_rootSet]
    exact ⟨hP, by simpa using hc z hz.1 hz.2⟩))

/-- Pieces that are not zero take a non-zero value between any two points. -/
theorem pw_exists_ne (hξ : ∀ j < m, ξ j < ξ (j + 1)) (hb : b ≤ m) (hne : ∀ k, a ≤ k → k < b → Q k ≠ 0) {i j : ℕ} {x y : ℝ}
    (hi : a ≤ i) (hj : j < b) (hx : In ξ i x) (hy : In ξ j y) (hxy : x < y) (hib : i < b) :
    ∃ k z, a ≤ k ∧ k < b ∧ In ξ k z ∧ x < z ∧ z < y ∧ (Q k).eval z ≠ 0 := by
  rcases lt_or_eq_of_le hx.2 with h | h
  · obtain ⟨z, h1, h2, h3⟩ := exists_ne (hne i hi hib) (lt_min hxy h)
    exact ⟨i, z, hi, hib, ⟨hx.1.trans h1.le, h2.le.trans (min_le_right _ _)⟩, h1, h2.trans_le (min_le_left _ _), h3⟩
  · have hij : i < j := by
      by_contra hc
      have := hy.2
      have := xi_le hξ (i := j + 1) (j := i + 1) (by omega) (by omega)
      linarith
    obtain ⟨z, h1, h2, h3⟩ := exists_ne (hne (i + 1) (by omega) (by omega))
      (lt_min hxy (by rw [h]; exact hξ (i + 1) (by omega)))
    exact ⟨i + 1, z, by omega, by omega, ⟨by rw [← h]; exact h1.le, h2.le.trans (min_le_right _ _)⟩, h1,
      h2.trans_le (min_le_left _ _), h3⟩

/-- Rolle with signs: every gap between two zeros gives a sign change of the derivative. -/
theorem Zeros.chain {N k : ℕ} {z : ℝ} (h : Zeros ξ a b Q (N + 1) k z) (hξ : ∀ j < m, ξ j < ξ (j + 1)) (hb : b ≤ m)
    (hQ : Joined ξ m Q) (hne : ∀ k, a ≤ k → k < b → Q k ≠ 0) :
    ∃ k' x e, x < z ∧ Chain ξ a b (fun i => derivative (Q i)) (N + 1) k' x e := by
  -- the two points of a gap
  have gap : ∀ {i j : ℕ} {x y : ℝ}, a ≤ i → i < b → j < b → In ξ i x → In ξ j y → x < y → (Q i).eval x = 0 → (Q j).eval y = 0 →
      ∃ e k1 z1 k2 z2, (e = 1 ∨ e = -1) ∧ a ≤ k1 ∧ k1 < b ∧ k2 < b ∧ In ξ k1 z1 ∧ In ξ k2 z2 ∧ x < z1 ∧ z1 < z2 ∧ z2 < y ∧
        0 < e * (derivative (Q k1)).eval z1 ∧ 0 < -e * (derivative (Q k2)).eval z2 := by
    intro i j x y hi hib hj hx hy hxy h0 h1
    obtain ⟨k, w, w1, w2, w3, w4, w5, w6⟩ := pw_exists_ne hξ hb hne hi hj hx hy hxy hib
    obtain ⟨e, he, hpos⟩ : ∃ e : ℝ, (e = 1 ∨ e = -1) ∧ 0 < e * (Q k).eval w := by
      rcases lt_or_gt_of_ne w6 with h | h
      · exact ⟨-1, Or.inr rfl, by linarith⟩
      · exact ⟨1, Or.inl rfl, by linarith⟩
    obtain ⟨k1, z1, g1, g2, g3, g4, g5, g6⟩ := pw_mvt' hξ hQ e (by omega) (by omega) hx w3 w4 (by rw [h0]; linarith)
    obtain ⟨k2, z2, f1, f2, f3, f4, f5, f6⟩ := pw_mvt' hξ hQ (-e) (by omega) (by omega) w3 hy w5 (by rw [h1]; linarith)
    exact ⟨e, k1, z1, k2, z2, he, by omega, by omega, by omega, g3, f3, g4, g5.trans f4, f5, g6, f6⟩
  induction N generalizing k z with
  | zero =>
    cases h with
    | snoc h1 h2 h3 h4 h5 =>
      obtain ⟨i1, i2, i3, i4⟩ := h1.mem hξ hb
      obtain ⟨e, k1, z1, k2, z2, g1, g2, g3, g4, g5, g6, g7, g8, g9, g10, g11⟩ := gap i1 i2 h2 i3 h3 h4 i4 h5
      exact ⟨k2, z2, -e, g9, .snoc (.start g2 g3 g5 g1 g10) g4 g6 g8 g11⟩
  | succ N ih =>
    cases h with
    | snoc h1 h2 h3 h4 h5 =>
      obtain ⟨i1, i2, i3, i4⟩ := h1.mem hξ hb
      obtain ⟨k', x, e', j1, j2⟩ := ih h1
      obtain ⟨_, _, _, j3, _⟩ := j2.mem hξ hb
      obtain ⟨e, k1, z1, k2, z2, g1, g2, g3, g4, g5, g6, g7, g8, g9, g10, g11⟩ := gap i1 i2 h2 i3 h3 h4 i4 h5
      by_cases hee : e' = e
      · subst hee
        exact ⟨k2, z2, -e', g9, .snoc j2 g4 g6 (by linarith) g11⟩
      · have : e = -e' := by rcases j3 with h | h <;> rcases g1 with h' | h' <;> simp_all
        rw [this] at g10
        exact ⟨k1, z1, -e', by linarith, .snoc j2 g3 g5 (by linarith) g10⟩

/-- Smooth piecewise polynomials of degree `p`: `p - 1` continuous derivatives. -/
structure Smooth (ξ : ℕ → ℝ) (m p : ℕ) (P : ℕ → ℝ[X]) : Prop where
  degree : ∀ j < m, (P j).natDegree ≤ p
  joined : ∀ r < p, Joined ξ m (fun j => derivative^[r] (P j))

section
variable {p : ℕ} {P : ℕ → ℝ[X]}

theorem deg_zero (h : Smooth ξ m p P) : ∀ k < m, (derivative^[p] (P k)).natDegree = 0 := by
  intro k hk
  have := natDegree_iterate_derivative (P k) p
  have := h.degree k hk
  omega

/-- The derivatives of a chain, up to the piecewise constant one. `L`, `R` say whether the pieces vanish to order `p` at the ends. -/
theorem chain_up (hξ : ∀ j < m, ξ j < ξ (j + 1)) (hb : b ≤ m) (h : Smooth ξ m p P) (L R : Prop) [Decidable L] [Decidable R]
    (hL : L → ∀ r < p, (derivative^[r] (P a)).eval (ξ a) = 0)
    (hR : R → ∀ r < p, (derivative^[r] (P (b - 1))).eval (ξ b) = 0) :
    ∀ (d r q q' k : ℕ) (x e : ℝ), r + d = p → (d ≠ 0 → 1 ≤ q) →
      q' + d = q + (if L then d else 0) + (if R then d else 0) →
      Chain ξ a b (fun j => derivative^[r] (P j)) q k x e →
      ∃ k x e, Chain ξ a b (fun j => derivative^[p] (P j)) q' k x e := by
  intro d
  induction d with
  | zero =>
    intro r q q' k x e hr _ hq hc
    obtain rfl : r = p := by omega
    obtain rfl : q' = q := by simpa using hq
    exact ⟨k, x, e, hc⟩
  | succ d ih =>
    intro r q q' k x e hr hq1 hq hc
    have hj := h.joined r (by omega)
    have hs : ∀ j, derivative (derivative^[r] (P j)) = derivative^[r + 1] (P j) := fun j =>
      (Function.iterate_succ_apply' _ _ _).symm
    have hq1 := hq1 (by omega)
    -- one derivative
    obtain ⟨k1, x1, hx1, hc1⟩ : ∃ k' x', x' < x ∧ Chain ξ a b (fun j => derivative^[r + 1] (P j))
        (q - 1 + (if L then 1 else 0)) k' x' e := by
      by_cases hLL : L
      · have := hc.deriveL hξ hb hj (hL hLL r (by omega))
        simp only [hs] at this
        simpa [hLL, show q - 1 + 1 = q by omega] using this
      · simp only [hLL, if_false, Nat.add_zero]
        rw [show q = (q - 1) + 1 by omega] at hc
        have := Chain.derive (q := q - 1) hc hξ hb hj
        simpa only [hs] using this
    by_cases hRR : R
    · obtain ⟨k2, x2, hc2⟩ := hc.deriveR hξ hb hj (hR hRR r (by omega)) hx1 (by simpa only [hs] using hc1)
      simp only [hs] at hc2
      refine ih (r + 1) _ q' k2 x2 (-e) (by omega) (by omega) ?_ hc2
      simp only [hRR, if_true] at hq ⊢
      split_ifs at hq ⊢ <;> omega
    · refine ih (r + 1) _ q' k1 x1 e (by omega) ?_ ?_ hc1
      · simp only [hRR, if_false] at hq
        split_ifs at hq ⊢ <;> omega
      · simp only [hRR, if_false] at hq ⊢
        split_ifs at hq ⊢ <;> omega

/-- Too many zeros: `N + 1` zeros in the pieces `a ≤ k < b`, none of which is the zero polynomial, are impossible when
`N ≥ b - a`, corrected by the order of vanishing at the ends. -/
theorem zeros_bound (hξ : ∀ j < m, ξ j < ξ (j + 1)) (hb : b ≤ m) (hp : 0 < p) (h : Smooth ξ m p P)
    (hne : ∀ k, a ≤ k → k < b → P k ≠ 0) (L R : Prop) [Decidable L] [Decidable R]
    (hL : L → ∀ r < p, (derivative^[r] (P a)).eval (ξ a) = 0)
    (hR : R → ∀ r < p, (derivative^[r] (P (b - 1))).eval (ξ b) = 0)
    {N q k : ℕ} {z : ℝ} (hz : Zeros ξ a b P (N + 1) k z)
    (hN : q + (p - 1) = N + 1 + (if L then p - 1 else 0) + (if R then p - 1 else 0)) : q < b - a := by
  have hj : Joined ξ m P := h.joined 0 hp
  obtain ⟨k', x, e, _, hc⟩ := hz.chain hξ hb hj hne
  obtain ⟨k3, x3, e3, h3⟩ := chain_up hξ hb h L R hL hR (p - 1) 1 (N + 1) q k' x e (by omega) (by omega) hN hc
  have h4 := h3.const_bound hξ hb (deg_zero h)
  have h5 := (h3.mem hξ hb).2.1
  omega

/-- Every point of the interval lies in a piece. -/
theorem exists_piece (hab : a < b) {x : ℝ} (h1 : ξ a ≤ x) (h2 : x ≤ ξ b) :
    ∃ k, a ≤ k ∧ k < b ∧ In ξ k x := by
  induction b, hab using Nat.le_induction with
  | base => exact ⟨a, le_rfl, by omega, h1, h2⟩
  | succ b hab ih =>
    rcases le_or_gt x (ξ b) with h | h
    · obtain ⟨k, k1, k2, k3⟩ := ih h
      exact ⟨k, k1, by omega, k3⟩
    · exact ⟨b, by omega, by omega, h.le, h2⟩

/-- Adding the zeros `τ l, ..., τ (l + d - 1)`. -/
theorem Zeros.extend (hab : a < b) (hb : b ≤ m) {τ : ℕ → ℝ} {l : ℕ} {N k : ℕ} {z : ℝ}
    (hz : Zeros ξ a b P N k z) : ∀ d, (∀ i, l ≤ i → i < l + d → ξ a ≤ τ i ∧ τ i ≤ ξ b ∧ z < τ i) →
    (∀ i, l ≤ i → i + 1 < l + d → τ i < τ (i + 1)) →
    (∀ i, l ≤ i → i < l + d → ∀ k < m, In ξ k (τ i) → (P k).eval (τ i) = 0) →
    ∃ k' z', Zeros ξ a b P (N + d) k' z' ∧ (d = 0 ∧ z' = z ∨ 0 < d ∧ z' = τ (l + d - 1)) := by
  intro d
  induction d with
  | zero => intro _ _ _; exact ⟨k, z, hz, Or.inl ⟨rfl, rfl⟩⟩
  | succ d ih =>
    intro h1 h2 h3
    obtain ⟨k', z', g1, g2⟩ := ih (fun i a1 a2 => h1 i a1 (by omega)) (fun i a1 a2 => h2 i a1 (by omega))
      (fun i a1 a2 => h3 i a1 (by omega))
    obtain ⟨b1, b2, b3⟩ := h1 (l + d) (by omega) (by omega)
    obtain ⟨k2, c1, c2, c3⟩ := exists_piece hab b1 b2
    refine ⟨k2, τ (l + d), .snoc g1 c2 c3 ?_ (h3 (l + d) (by omega) (by omega) k2 (by omega) c3), Or.inr ⟨by omega, by congr 1⟩⟩
    rcases g2 with ⟨g2, g3⟩ | ⟨g2, g3⟩
    · rw [g3]; exact b3
    · rw [g3]
      have := h2 (l + d - 1) (by omega) (by omega)
      rwa [show l + d - 1 + 1 = l + d by omega] at this

/-- The Schoenberg–Whitney theorem: a smooth piecewise polynomial of degree `p` on `m` intervals that vanishes at `m + p` increasing
points, of which few enough lie on either side of every break point, is zero. -/
theorem schoenberg_whitney (hξ : ∀ j < m, ξ j < ξ (j + 1)) (hp : 0 < p) (h : Smooth ξ m p P) {τ : ℕ → ℝ}
    (hτ : ∀ i, i + 1 < m + p → τ i < τ (i + 1)) (hin : ∀ i < m + p, ξ 0 ≤ τ i ∧ τ i ≤ ξ m)
    (hlo : ∀ i j, j < m → j + p ≤ i → i < m + p → ξ j < τ i) (hhi : ∀ i j, i < j → j < m → τ i < ξ j)
    (h0 : ∀ i < m + p, ∀ k < m, In ξ k (τ i) → (P k).eval (τ i) = 0) : ∀ k < m, P k = 0 := by
  intro k0 hk0
  by_contra hne0
  -- the run of non-zero pieces around `k0`
  obtain ⟨a, ha0, hane, haL⟩ : ∃ a ≤ k0, (∀ k, a ≤ k → k ≤ k0 → P k ≠ 0) ∧ (0 < a → P (a - 1) = 0) := by
    clear hk0
    induction k0 with
    | zero => exact ⟨0, le_rfl, fun k _ h2 => (show k = 0 by omega) ▸ hne0, fun h => absurd h (lt_irrefl _)⟩
    | succ k0 ih =>
      by_cases hz : P k0 = 0
      · exact ⟨k0 + 1, le_rfl, fun k h1 h2 => (show k = k0 + 1 by omega) ▸ hne0, fun _ => hz⟩
      · obtain ⟨a, a1, a2, a3⟩ := ih hz
        refine ⟨a, by omega, fun k h1 h2 => ?_, a3⟩
        rcases Nat.lt_or_ge k (k0 + 1) with h3 | h3
        · exact a2 k h1 (by omega)
        · obtain rfl : k = k0 + 1 := by omega
          exact hne0
  obtain ⟨b, hb0, hbm, hbne, hbR⟩ : ∃ b, k0 < b ∧ b ≤ m ∧ (∀ k, k0 ≤ k → k < b → P k ≠ 0) ∧ (b < m → P b = 0) := by
    obtain ⟨d, hd⟩ : ∃ d, k0 + 1 + d = m := ⟨m - (k0 + 1), by omega⟩
    clear ha0 hane
    induction d generalizing k0 with
    | zero => exact ⟨m, by omega, le_rfl, fun k h1 h2 => (show k = k0 by omega) ▸ hne0, fun h => absurd h (lt_irrefl _)⟩
    | succ d ih =>
      by_cases hz : P (k0 + 1) = 0
      · exact ⟨k0 + 1, by omega, by omega, fun k h1 h2 => (show k = k0 by omega) ▸ hne0, fun _ => hz⟩
      · obtain ⟨b, b1, b2, b3, b4⟩ := ih (k0 + 1) (by omega) hz (by omega)
        refine ⟨b, by omega, b2, fun k h1 h2 => ?_, b4⟩
        rcases Nat.lt_or_ge k (k0 + 1) with h3 | h3
        · obtain rfl : k = k0 := by omega
          exact hne0
        · exact b3 k h3 h2
  have hab : a < b := by omega
  have hne : ∀ k, a ≤ k → k < b → P k ≠ 0 := fun k h1 h2 => by
    rcases Nat.lt_or_ge k k0 with h3 | h3
    · exact hane k h1 h3.le
    · exact hbne k h3 h2
  have hL : 0 < a → ∀ r < p, (derivative^[r] (P a)).eval (ξ a) = 0 := by
    intro h1 r hr
    have := h.joined r hr (a - 1) (by omega)
    simp only [show a - 1 + 1 = a by omega, haL h1] at this
    simp only [iterate_derivative_zero, eval_zero] at this
    exact this.symm
  have hR : b < m → ∀ r < p, (derivative^[r] (P (b - 1))).eval (ξ b) = 0 := by
    intro h1 r hr
    have := h.joined r hr (b - 1) (by omega)
    simp only [show b - 1 + 1 = b by omega, hbR h1] at this
    simpa only [iterate_derivative_zero, eval_zero] using this
  have hτlt : ∀ i j, i < j → j < m + p → τ i < τ j := by
    intro i j hij
    induction j, hij using Nat.le_induction with
    | base => intro h; exact hτ i h
    | succ j hij ih => intro h; exact (ih (by omega)).trans (hτ j h)
  have hξab := xi_lt hξ hab hbm
  have h0' := fun i (hi : i < m + p) => h0 i hi
  have hxb : In ξ (b - 1) (ξ b) := ⟨xi_le hξ (by omega) hbm, by rw [show b - 1 + 1 = b by omega]⟩
  rcases Nat.eq_zero_or_pos a with ha | ha <;> rcases Nat.lt_or_ge b m with hb | hb
  · -- `τ 0, ..., τ (b - 1), ξ b`
    subst ha
    obtain ⟨k, k1, k2, k3⟩ := exists_piece hab (hin 0 (by omega)).1 (hhi 0 b hab hb).le
    have hz : Zeros ξ 0 b P 0 k (τ 0) := .start k1 k2 k3 (h0 0 (by omega) k (by omega) k3)
    obtain ⟨k', z', g1, g2⟩ := hz.extend (l := 1) (τ := τ) hab hbm (b - 1)
      (fun i i1 i2 => ⟨(hin i (by omega)).1, (hhi i b (by omega) hb).le, hτlt 0 i (by omega) (by omega)⟩)
      (fun i i1 i2 => hτ i (by omega)) (fun i i1 i2 => h0 i (by omega))
    have hz' : z' < ξ b := by
      rcases g2 with ⟨_, g2⟩ | ⟨_, g2⟩ <;> rw [g2]
      · exact hhi 0 b hab hb
      · exact hhi _ b (by omega) hb
    have hz2 : Zeros ξ 0 b P (0 + (b - 1) + 1) (b - 1) (ξ b) := .snoc g1 (by omega) hxb hz' (hR hb 0 hp)
    have := zeros_bound (q := b) hξ hbm hp h hne False True (fun h => h.elim) (fun _ => hR hb) hz2
      (by simp only [if_false, if_true]; omega)
    omega
  · -- all of them
    subst ha
    obtain rfl : b = m := by omega
    obtain ⟨k, k1, k2, k3⟩ := exists_piece hab (hin 0 (by omega)).1 (hin 0 (by omega)).2
    have hz : Zeros ξ 0 b P 0 k (τ 0) := .start k1 k2 k3 (h0 0 (by omega) k (by omega) k3)
    obtain ⟨k', z', g1, g2⟩ := hz.extend (l := 1) (τ := τ) hab hbm (b + p - 1)
      (fun i i1 i2 => ⟨(hin i (by omega)).1, (hin i (by omega)).2, hτlt 0 i (by omega) (by omega)⟩)
      (fun i i1 i2 => hτ i (by omega)) (fun i i1 i2 => h0 i (by omega))
    rw [show 0 + (b + p - 1) = (b + p - 2) + 1 by omega] at g1
    have := zeros_bound (q := b) hξ hbm hp h hne False False (fun h => h.elim) (fun h => h.elim) g1
      (by simp only [if_false]; omega)
    omega
  · -- `ξ a, τ (a + p), ..., τ (b - 1), ξ b`
    have hz : Zeros ξ a b P 0 a (ξ a) := .start le_rfl hab ⟨le_rfl, (hξ a (by omega)).le⟩ (hL ha 0 hp)
    obtain ⟨k', z', g1, g2⟩ := hz.extend (l := a + p) (τ := τ) hab hbm (b - a - p)
      (fun i i1 i2 => ⟨(hlo i a (by omega) (by omega) (by omega)).le, (hhi i b (by omega) hb).le,
        hlo i a (by omega) (by omega) (by omega)⟩)
      (fun i i1 i2 => hτ i (by omega)) (fun i i1 i2 => h0 i (by omega))
    have hz' : z' < ξ b := by
      rcases g2 with ⟨_, g2⟩ | ⟨_, g2⟩ <;> rw [g2]
      · exact hξab
      · exact hhi _ b (by omega) hb
    have hz2 : Zeros ξ a b P (0 + (b - a - p) + 1) (b - 1) (ξ b) := .snoc g1 (by omega) hxb hz' (hR hb 0 hp)
    have := zeros_bound (q := b - a - p + 1 + (p - 1)) hξ hbm hp h hne True True (fun _ => hL ha) (fun _ => hR hb) hz2
      (by simp only [if_true]; omega)
    omega
  · -- `ξ a, τ (a + p), ..., τ (m + p - 1)`
    obtain rfl : b = m := by omega
    have hz : Zeros ξ a b P 0 a (ξ a) := .start le_rfl hab ⟨le_rfl, (hξ a (by omega)).le⟩ (hL ha 0 hp)
    obtain ⟨k', z', g1, g2⟩ := hz.extend (l := a + p) (τ := τ) hab hbm (b - a)
      (fun i i1 i2 => ⟨(hlo i a (by omega) (by omega) (by omega)).le, (hin i (by omega)).2,
        hlo i a (by omega) (by omega) (by omega)⟩)
      (fun i i1 i2 => hτ i (by omega)) (fun i i1 i2 => h0 i (by omega))
    rw [show 0 + (b - a) = (b - a - 1) + 1 by omega] at g1
    have := zeros_bound (q := b - a) hξ hbm hp h hne True False (fun _ => hL ha) (fun h => h.elim) g1
      (by simp only [if_false, if_true]; omega)
    omega

end

end SW
end MU
