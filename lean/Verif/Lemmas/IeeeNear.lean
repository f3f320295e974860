import Verif.Lemmas.Ieee
import Verif.Lemmas.Rounding

/-!
# Rounding errors in binary64 with overflow and underflow

`FNear k A Q P d`: the computed `d` is a finite number, `P` up to `k` roundings of terms of total size `Q` and underflows of total size `A`.
-/

set_option linter.unusedSectionVars false

namespace MU

open Spec Dbl

/-- As `Near`, with an absolute error. -/
structure NearA (k : ℕ) (A Q P r : ℝ) : Prop where
  err : |r - P| ≤ gam k * Q + (1 + gam k) * A
  size : |P| ≤ Q
  pos : 0 ≤ A

namespace NearA

variable {k l : ℕ} {A A' Q Q' P P' r r' : ℝ}

theorem nonneg (h : NearA k A Q P r) : 0 ≤ Q := (abs_nonneg _).trans h.size

theorem exact (P : ℝ) : NearA 0 0 |P| P P := ⟨by simp [gam], le_rfl, le_rfl⟩

theorem upto (h : NearA k A Q P r) (hk : k ≤ l) : NearA l A Q P r := by
  refine ⟨h.err.trans ?_, h.size, h.pos⟩
  have h1 := mul_le_mul_of_nonneg_right (gam_mono hk) h.nonneg
  have h2 := mul_le_mul_of_nonneg_right (gam_mono hk) h.pos
  linarith

theorem abs_le (h : NearA k A Q P r) : |r| ≤ (1 + gam k) * (Q + A) := by
  have := abs_add_le (r - P) P
  rw [sub_add_cancel] at this
  have h1 := h.err
  have h2 := h.size
  linarith

theorem neg (h : NearA k A Q P r) : NearA k A Q (-P) (-r) := by
  refine ⟨?_, by rw [abs_neg]; exact h.size, h.pos⟩
  rw [show -r - -P = -(r - P) by ring, abs_neg]
  exact h.err

theorem add (h : NearA k A Q P r) (h' : NearA k A' Q' P' r') : NearA k (A + A') (Q + Q') (P + P') (r + r') := by
  refine ⟨?_, (abs_add_le _ _).trans (add_le_add h.size h'.size), add_nonneg h.pos h'.pos⟩
  rw [show r + r' - (P + P') = (r - P) + (r' - P') by ring]
  refine (abs_add_le _ _).trans ?_
  have := h.err
  have := h'.err
  linarith

theorem mul (h : NearA k A Q P r) (h' : NearA l A' Q' P' r') : NearA (k + l) (A * Q' + Q * A' + A * A') (Q * Q') (P * P') (r * r') := by
  have p1 := h.pos
  have p2 := h'.pos
  have p3 := h.nonneg
  have p4 := h'.nonneg
  refine ⟨?_, by rw [abs_mul]; exact mul_le_mul h.size h'.size (abs_nonneg _) h.nonneg, by positivity⟩
  rw [show r * r' - P * P' = (r - P) * r' + P * (r' - P') by ring]
  refine (abs_add_le _ _).trans ?_
  rw [abs_mul, abs_mul, gam_add]
  have g1 := gam_nonneg k
  have g2 := gam_nonneg l
  have h1 : |r - P| * |r'| ≤ (gam k * Q + (1 + gam k) * A) * ((1 + gam l) * (Q' + A')) :=
    mul_le_mul h.err h'.abs_le (abs_nonneg _) (by positivity)
  have h2 : |P| * |r' - P'| ≤ Q * (gam l * Q' + (1 + gam l) * A') := mul_le_mul h.size h'.err (abs_nonneg _) h.nonneg
  nlinarith

/-- One more rounding, with an underflow of at most `t`. -/
theorem round (h : NearA k A Q P r) {ε η t : ℝ} (hε : |ε| ≤ uround) (hη : |η| ≤ t) : NearA (k + 1) (A + t) Q P (r * (1 + ε) + η) := by
  have ht : 0 ≤ t := (abs_nonneg _).trans hη
  refine ⟨?_, h.size, add_nonneg h.pos ht⟩
  rw [show r * (1 + ε) + η - P = r * ε + (r - P) + η by ring]
  refine (abs_add_le _ _).trans ?_
  have h1 := abs_add_le (r * ε) (r - P)
  rw [abs_mul] at h1
  have h2 : |r| * |ε| ≤ (1 + gam k) * (Q + A) * uround := mul_le_mul h.abs_le hε (abs_nonneg _) (by
    have := h.nonneg
    have := h.pos
    have := gam_nonneg k
    positivity)
  have h3 := h.err
  have h4 : t ≤ (1 + gam (k + 1)) * t := by
    have := mul_nonneg (gam_nonneg (k + 1)) ht
    linarith
  rw [gam_add, gam_one] at h4 ⊢
  nlinarith

end NearA

/-- The computed number is finite and near `P`. -/
def FNear (k : ℕ) (A Q P : ℝ) (d : Dbl ℝ) : Prop := ∃ r, d = .num r ∧ Double64 r ∧ NearA k A Q P r

namespace FNear

variable {k l : ℕ} {A A' Q Q' P P' : ℝ} {d d' : Dbl ℝ} {fl : ℝ → Option ℝ}

theorem exact {P : ℝ} (h : Double64 P) : FNear 0 0 |P| P (.num P) := ⟨P, rfl, h, NearA.exact P⟩

theorem upto (h : FNear k A Q P d) (hk : k ≤ l) : FNear l A Q P d := by
  obtain ⟨r, h1, h2, h3⟩ := h
  exact ⟨r, h1, h2, h3.upto hk⟩

theorem add (h : Ieee fl) (a : FNear k A Q P d) (b : FNear k A' Q' P' d') (ho : (1 + gam k) * (Q + A + (Q' + A')) < overflow64) :
    FNear (k + 1) (A + A') (Q + Q') (P + P') (fadd fl d d') := by
  obtain ⟨r, rfl, h2, h3⟩ := a
  obtain ⟨r', rfl, h2', h3'⟩ := b
  have h4 := h3.add h3'
  have h5 : |r + r'| < overflow64 := lt_of_le_of_lt (h4.abs_le.trans (le_of_eq (by ring))) ho
  obtain ⟨ε, e1, e2, e3⟩ := fadd_ok h h2 h2' h5
  refine ⟨_, e3, e2, ?_⟩
  have := h4.round e1 (η := 0) (t := 0) (by simp)
  rwa [add_zero, add_zero] at this

theorem sub (h : Ieee fl) (a : FNear k A Q P d) (b : FNear k A' Q' P' d') (ho : (1 + gam k) * (Q + A + (Q' + A')) < overflow64) :
    FNear (k + 1) (A + A') (Q + Q') (P - P') (fsub fl d d') := by
  obtain ⟨r, rfl, h2, h3⟩ := a
  obtain ⟨r', rfl, h2', h3'⟩ := b
  have h4 := h3.add h3'.neg
  rw [← sub_eq_add_neg, ← sub_eq_add_neg] at h4
  have h5 : |r - r'| < overflow64 := lt_of_le_of_lt (h4.abs_le.trans (le_of_eq (by ring))) ho
  obtain ⟨ε, e1, e2, e3⟩ := fsub_ok h h2 h2' h5
  refine ⟨_, e3, e2, ?_⟩
  have := h4.round e1 (η := 0) (t := 0) (by simp)
  rwa [add_zero, add_zero] at this

theorem mul (h : Ieee fl) (a : FNear k A Q P d) (b : FNear l A' Q' P' d') (ho : (1 + gam (k + l)) * ((Q + A) * (Q' + A')) < overflow64) :
    FNear (k + l + 1) (A * Q' + Q * A' + A * A' + tiny) (Q * Q') (P * P') (fmul fl d d') := by
  obtain ⟨r, rfl, h2, h3⟩ := a
  obtain ⟨r', rfl, h2', h3'⟩ := b
  have h4 := h3.mul h3'
  have h5 : |r * r'| < overflow64 := lt_of_le_of_lt (h4.abs_le.trans (le_of_eq (by ring))) ho
  obtain ⟨ε, η, e1, e2, e3, e4⟩ := fmul_ok h h5
  exact ⟨_, e4, e3, h4.round e1 e2⟩

end FNear

/-- Few roundings at most double. -/
theorem gam_le_one {k : ℕ} (h : k ≤ 2 ^ 52) : gam k ≤ 1 := by
  have hu := uround_pos
  have hk : (k : ℝ) ≤ 2 ^ 52 := by exact_mod_cast h
  have h1 : (1 + uround) ^ k ≤ Real.exp (k * uround) := by
    rw [Real.exp_nat_mul]
    gcongr
    rw [add_comm]
    exact Real.add_one_le_exp _
  have h2 : (k : ℝ) * uround ≤ 1 / 2 := by
    calc (k : ℝ) * uround ≤ 2 ^ 52 * uround := by gcongr
      _ ≤ 1 / 2 := by unfold uround; norm_num
  have h3 : Real.exp (k * uround) ≤ Real.exp (1 / 2) := Real.exp_le_exp.2 h2
  have h4 : Real.exp (1 / 2) ≤ 2 := by
    have h5 : Real.exp (1 / 2) * Real.exp (1 / 2) = Real.exp 1 := by rw [← Real.exp_add]; norm_num
    have h6 := Real.exp_one_lt_d9
    have h7 := Real.exp_pos (1 / 2)
    nlinarith
  unfold gam
  linarith

end MU
