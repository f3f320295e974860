import Mathlib.Analysis.Calculus.Deriv.Mul
import Mathlib.Analysis.Calculus.Deriv.Add
import Mathlib.Data.Real.Basic
import Mathlib.Tactic.Ring
import Mathlib.Tactic.Linarith
import Mathlib.Tactic.FieldSimp
import Mathlib.Tactic.Positivity

/-!
# Polynomials with integer coefficients on intervals

A polynomial is the list of its coefficients, the constant one first. `nonnegOn` proves that it is non-negative on an interval: on each piece
`[a/c, b/c)` the coefficients of `(1+t)^n p((a + b t)/(c + c t))` have to be non-negative. The functions are computed by the kernel; their soundness is
proved here for all polynomials.
-/

namespace MU.PolyCheck

/-- The value of a polynomial. -/
def pev : List ℤ → ℝ → ℝ
  | [], _ => 0
  | a :: l, x => a + x * pev l x

def padd : List ℤ → List ℤ → List ℤ
  | [], m => m
  | l, [] => l
  | a :: l, b :: m => (a + b) :: padd l m

def pscale (c : ℤ) : List ℤ → List ℤ
  | [] => []
  | a :: l => (c * a) :: pscale c l

def pmul : List ℤ → List ℤ → List ℤ
  | [], _ => []
  | a :: l, m => padd (pscale a m) (0 :: pmul l m)

def psub (l m : List ℤ) : List ℤ := padd l (pscale (-1) m)

/-- The derivative of `x * p + ...`: `pderivAux k l` has the coefficients `k * l_0, (k+1) * l_1, ...`. -/
def pderivAux : ℤ → List ℤ → List ℤ
  | _, [] => []
  | k, a :: l => (k * a) :: pderivAux (k + 1) l

def pderiv : List ℤ → List ℤ
  | [] => []
  | _ :: l => pderivAux 1 l

theorem pev_padd (l m : List ℤ) (x : ℝ) : pev (padd l m) x = pev l x + pev m x := by
  induction l generalizing m with
  | nil => simp [padd, pev]
  | cons a l ih =>
    cases m with
    | nil => simp [padd, pev]
    | cons b m =>
      simp only [padd, pev, ih]
      push_cast
      ring

theorem pev_pscale (c : ℤ) (l : List ℤ) (x : ℝ) : pev (pscale c l) x = c * pev l x := by
  induction l with
  | nil => simp [pscale, pev]
  | cons a l ih =>
    simp only [pscale, pev, ih]
    push_cast
    ring

theorem pev_pmul (l m : List ℤ) (x : ℝ) : pev (pmul l m) x = pev l x * pev m x := by
  induction l with
  | nil => simp [pmul, pev]
  | cons a l ih =>
    simp only [pmul, pev_padd, pev_pscale, pev, ih]
    push_cast
    ring

theorem pev_psub (l m : List ℤ) (x : ℝ) : pev (psub l m) x = pev l x - pev m x := by
  rw [psub, pev_padd, pev_pscale]
  push_cast
  ring

theorem pev_pderivAux (k : ℤ) (l : List ℤ) (x : ℝ) :
    pev (pderivAux (k + 1) l) x = pev (pderivAux k l) x + pev l x := by
  induction l generalizing k with
  | nil => simp [pderivAux, pev]
  | cons a l ih =>
    simp only [pderivAux, pev, ih]
    push_cast
    ring

theorem hasDerivAt_pev (l : List ℤ) (x : ℝ) : HasDerivAt (pev l) (pev (pderiv l) x) x := by
  induction l with
  | nil => exact hasDerivAt_const x 0
  | cons a l ih =>
    have h : HasDerivAt (fun y => (a : ℝ) + y * pev l y) (1 * pev l x + x * pev (pderiv l) x) x :=
      ((hasDerivAt_id x).mul ih).const_add _
    refine h.congr_deriv ?_
    rw [pderiv, ← zero_add (1 : ℤ), pev_pderivAux]
    have : pev (pderivAux 0 l) x = x * pev (pderiv l) x := by
      cases l with
      | nil => simp [pderivAux, pderiv, pev]
      | cons b l => simp [pderivAux, pderiv, pev]
    rw [this]
    ring

theorem continuous_pev (l : List ℤ) : Continuous (pev l) :=
  continuous_iff_continuousAt.2 fun x => (hasDerivAt_pev l x).continuousAt

/-- All coefficients are non-negative. -/
def allNonneg (l : List ℤ) : Bool := l.all fun a => decide (0 ≤ a)

theorem pev_nonneg {l : List ℤ} (h : allNonneg l = true) {x : ℝ} (hx : 0 ≤ x) : 0 ≤ pev l x := by
  induction l with
  | nil => simp [pev]
  | cons a l ih =>
    simp only [allNonneg, List.all_cons, Bool.and_eq_true, decide_eq_true_eq] at h ih
    have := ih h.2
    have h1 : (0 : ℝ) ≤ a := by exact_mod_cast h.1
    simp only [pev]
    positivity

/-- `pow l n`. -/
def ppow (l : List ℤ) : Nat → List ℤ
  | 0 => [1]
  | n + 1 => pmul l (ppow l n)

theorem pev_ppow (l : List ℤ) (n : Nat) (x : ℝ) : pev (ppow l n) x = pev l x ^ n := by
  induction n with
  | zero => simp [ppow, pev]
  | succ n ih => rw [ppow, pev_pmul, ih, pow_succ']

/-- The pair of `d^n p(s/d)` and `d^n`, for two polynomials `s` and `d`, where `n` is the length of `p`. -/
def subst (s d : List ℤ) : List ℤ → List ℤ × List ℤ
  | [] => ([], [1])
  | a :: l =>
    let r := subst s d l
    let e := pmul d r.2
    (padd (pscale a e) (pmul s r.1), e)

theorem subst_ok (s d : List ℤ) (l : List ℤ) (t : ℝ) (hd : pev d t ≠ 0) :
    pev (subst s d l).2 t = pev d t ^ l.length ∧
    pev (subst s d l).1 t * pev d t = pev d t ^ (l.length + 1) * pev l (pev s t / pev d t) := by
  induction l with
  | nil => simp [subst, pev]
  | cons a l ih =>
    obtain ⟨h1, h2⟩ := ih
    constructor
    · simp only [subst, pev_pmul, h1, List.length_cons, pow_succ]
      ring
    · simp only [subst, pev_padd, pev_pscale, pev_pmul, h1, List.length_cons, pev]
      have h3 : pev (subst s d l).1 t = pev d t ^ l.length * pev l (pev s t / pev d t) := by
        have : pev (subst s d l).1 t * pev d t = (pev d t ^ l.length * pev l (pev s t / pev d t)) * pev d t := by
          rw [h2]; ring
        exact mul_right_cancel₀ hd this
      rw [h3]
      field_simp
      ring

/-- `p ≥ 0` on `[a/c, b/c)`. -/
def checkPiece (p : List ℤ) (a b c : ℤ) : Bool := allNonneg (subst [a, b] [c, c] p).1

theorem checkPiece_sound {p : List ℤ} {a b c : ℤ} (h : checkPiece p a b c = true) (hc : 0 < c) {x : ℝ} (hx : (a : ℝ) / c ≤ x) (hx' : x < (b : ℝ) / c) :
    0 ≤ pev p x := by
  have hc' : (0 : ℝ) < c := by exact_mod_cast hc
  have h1 : (a : ℝ) ≤ c * x := by rw [div_le_iff₀ hc'] at hx; linarith
  have h2 : (c : ℝ) * x < b := by rw [lt_div_iff₀ hc'] at hx'; linarith
  set t := (c * x - a) / (b - c * x) with ht
  have hden : 0 < b - c * x := by linarith
  have ht0 : 0 ≤ t := div_nonneg (by linarith) hden.le
  have hd : pev [c, c] t = c + c * t := by simp [pev]; ring
  have hs : pev [a, b] t = a + b * t := by simp [pev]; ring
  have hdpos : 0 < pev [c, c] t := by rw [hd]; positivity
  have hxe : pev [a, b] t / pev [c, c] t = x := by
    rw [hd, hs, ht]
    have hden' := hden.ne'
    have hc'' := hc'.ne'
    have hba : (b : ℝ) - a ≠ 0 := by
      have : (0 : ℝ) < b - a := by linarith
      exact this.ne'
    have e1 : (a : ℝ) + b * ((c * x - a) / (b - c * x)) = (b - a) * (c * x) / (b - c * x) := by
      field_simp
      ring
    have e2 : (c : ℝ) + c * ((c * x - a) / (b - c * x)) = (b - a) * c / (b - c * x) := by
      field_simp
      ring
    rw [e1, e2]
    field_simp
  obtain ⟨-, h4⟩ := subst_ok [a, b] [c, c] p t hdpos.ne'
  rw [hxe] at h4
  have h5 := pev_nonneg h ht0
  have h6 : 0 ≤ pev [c, c] t ^ (p.length + 1) * pev p x := by
    rw [← h4]
    exact mul_nonneg h5 hdpos.le
  exact nonneg_of_mul_nonneg_right h6 (pow_pos hdpos _)

/-- `p ≥ 0` on `[a/c, ∞)`. -/
def checkTail (p : List ℤ) (a c : ℤ) : Bool := allNonneg (subst [a, c] [c] p).1

theorem checkTail_sound {p : List ℤ} {a c : ℤ} (h : checkTail p a c = true) (hc : 0 < c) {x : ℝ} (hx : (a : ℝ) / c ≤ x) : 0 ≤ pev p x := by
  have hc' : (0 : ℝ) < c := by exact_mod_cast hc
  have ht0 : 0 ≤ x - a / c := by linarith
  set t := x - (a : ℝ) / c with ht
  have hd : pev [c] t = c := by simp [pev]
  have hs : pev [a, c] t = a + c * t := by simp [pev]; ring
  have hdpos : 0 < pev [c] t := by rw [hd]; exact hc'
  have hxe : pev [a, c] t / pev [c] t = x := by
    rw [hd, hs, ht]
    field_simp
    ring
  obtain ⟨-, h4⟩ := subst_ok [a, c] [c] p t hdpos.ne'
  rw [hxe] at h4
  have h5 := pev_nonneg h ht0
  have h6 : 0 ≤ pev [c] t ^ (p.length + 1) * pev p x := by
    rw [← h4]
    exact mul_nonneg h5 hdpos.le
  exact nonneg_of_mul_nonneg_right h6 (pow_pos hdpos _)

/-- `p ≥ 0` on `[a/c, b/c)`, cut at the given points (times `c`). -/
def checkOn (p : List ℤ) (c : ℤ) : ℤ → List ℤ → ℤ → Bool
  | a, [], b => checkPiece p a b c
  | a, m :: l, b => checkPiece p a m c && checkOn p c m l b

theorem checkOn_sound {p : List ℤ} {c : ℤ} (hc : 0 < c) (l : List ℤ) {a b : ℤ} (h : checkOn p c a l b = true) {x : ℝ} (hx : (a : ℝ) / c ≤ x)
    (hx' : x < (b : ℝ) / c) : 0 ≤ pev p x := by
  induction l generalizing a with
  | nil => exact checkPiece_sound h hc hx hx'
  | cons m l ih =>
    simp only [checkOn, Bool.and_eq_true] at h
    by_cases hm : x < (m : ℝ) / c
    · exact checkPiece_sound h.1 hc hx hm
    · exact ih h.2 (not_lt.1 hm)

/-- `p ≥ 0` on `[a/c, ∞)`, cut at the given points (times `c`). -/
def checkFrom (p : List ℤ) (c : ℤ) : ℤ → List ℤ → Bool
  | a, [] => checkTail p a c
  | a, m :: l => checkPiece p a m c && checkFrom p c m l

theorem checkFrom_sound {p : List ℤ} {c : ℤ} (hc : 0 < c) (l : List ℤ) {a : ℤ} (h : checkFrom p c a l = true) {x : ℝ} (hx : (a : ℝ) / c ≤ x) :
    0 ≤ pev p x := by
  induction l generalizing a with
  | nil => exact checkTail_sound h hc hx
  | cons m l ih =>
    simp only [checkFrom, Bool.and_eq_true] at h
    by_cases hm : x < (m : ℝ) / c
    · exact checkPiece_sound h.1 hc hx hm
    · exact ih h.2 (not_lt.1 hm)

/-- The closed interval: by continuity. -/
theorem checkOn_sound_closed {p : List ℤ} {c : ℤ} (hc : 0 < c) (l : List ℤ) {a b : ℤ} (hab : a < b) (h : checkOn p c a l b = true) {x : ℝ}
    (hx : (a : ℝ) / c ≤ x) (hx' : x ≤ (b : ℝ) / c) : 0 ≤ pev p x := by
  have hc' : (0 : ℝ) < c := by exact_mod_cast hc
  have hlt : (a : ℝ) / c < b / c := div_lt_div_of_pos_right (by exact_mod_cast hab) hc'
  rcases lt_or_eq_of_le hx' with h1 | h1
  · exact checkOn_sound hc l h hx h1
  · subst h1
    have hcl : IsClosed {y : ℝ | 0 ≤ pev p y} := isClosed_le continuous_const (continuous_pev p)
    have hsub : Set.Ico ((a : ℝ) / c) (b / c) ⊆ {y : ℝ | 0 ≤ pev p y} := fun y hy => checkOn_sound hc l h hy.1 hy.2
    have := hcl.closure_subset_iff.2 hsub
    rw [closure_Ico hlt.ne] at this
    exact this ⟨hlt.le, le_refl _⟩

end MU.PolyCheck
