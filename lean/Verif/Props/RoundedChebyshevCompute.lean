import Verif.Model.RoundedChebyshevCompute
import Verif.Props.RoundedChebyshev
import Verif.Props.RoundedUnit
import Verif.Props.SpectralAccuracy

set_option linter.unusedSectionVars false

/-!
# Chebyshev series built and evaluated in double arithmetic

C135.
-/

namespace MU.Spec
open Polynomial

/-- A cosine within `1 / 2^52` of the exact one. -/
def CosClose (cosR : ℝ → ℝ) : Prop := ∀ t, |cosR t - Real.cos t| ≤ 1 / 2 ^ 52

/-- Chebyshev polynomials within `ε` of the exact ones on `[-1, 1]`, up to the order `n`. -/
def PolyClose (ε : ℝ) (n : Nat) (TR : Nat → ℝ → ℝ) : Prop := ∀ i, i ≤ n → ∀ t, |t| ≤ 1 → |TR i t - (Chebyshev.T ℝ i).eval t| ≤ ε

/-- On the domain `X` the program `F` computes within `φ` the function `G`, which is at most `M` in magnitude and of which the rate of change in the
variable mapped to `[-1, 1]` is at most `L`. -/
structure Computes1 (F G : ℝ → ℝ) (X : Domain ℝ) (φ L M : ℝ) : Prop where
  rate : 0 ≤ L
  close : ∀ x, X.Mem x → |F x - G x| ≤ φ
  lipschitz : ∀ x y, X.Mem x → X.Mem y → |G x - G y| ≤ L * |X.unit x - X.unit y|
  bound : ∀ x, X.Mem x → |G x| ≤ M

/-- The error of a coefficient computed in double. -/
noncomputable def coeffErr (n : Nat) (κ ε φ L M : ℝ) : ℝ :=
  4 * (φ + 16 * κ * L / 2 ^ 53) + 2 * M * (ε + 21 * n ^ 2 / 2 ^ 53) + 4 * ((n + 6) / 2 ^ 53) * (M + φ)

/-- The error of the value computed in double. -/
noncomputable def seriesErr (n : Nat) (κ ε φ L M : ℝ) : ℝ :=
  (n + 1) * ((1 + chebErr n κ) * coeffErr n κ ε φ L M + 2 * chebErr n κ * M)

end MU.Spec

namespace MU
open Spec Finset Polynomial

variable {rnd cosR : ℝ → ℝ} {TR : Nat → ℝ → ℝ}

/-! ## Chebyshev polynomials at close points -/

theorem abs_chebTPrime_le (n : Nat) {t : ℝ} (ht : |t| ≤ 1) : |chebTPrime n t| ≤ (n : ℝ) ^ 2 := by
  cases n with
  | zero => simp [chebTPrime]
  | succ n =>
    rw [chebTPrime, abs_mul, abs_of_nonneg (Nat.cast_nonneg _), sq]
    refine mul_le_mul_of_nonneg_left ?_ (Nat.cast_nonneg _)
    have := abs_chebU_le ht n
    push_cast
    exact this

theorem chebT_lipschitz (n : Nat) {s t : ℝ} (hs : |s| ≤ 1) (ht : |t| ≤ 1) : |chebT n s - chebT n t| ≤ (n : ℝ) ^ 2 * |s - t| := by
  have := Convex.norm_image_sub_le_of_norm_hasDerivWithin_le (f := fun t : ℝ => (Chebyshev.T ℝ n).eval t)
    (f' := fun t => (derivative (Chebyshev.T ℝ n)).eval t) (s := Set.Icc (-1 : ℝ) 1) (C := (n : ℝ) ^ 2)
    (fun x _ => ((Chebyshev.T ℝ n).hasDerivAt x).hasDerivWithinAt) (fun x hx => by
      rw [← chebTPrime_eq, Real.norm_eq_abs]
      exact abs_chebTPrime_le n (abs_le.2 hx)) (convex_Icc _ _) (abs_le.1 ht) (abs_le.1 hs)
  rw [chebT_eq, chebT_eq]
  simpa [Real.norm_eq_abs] using this

/-! ## The nodes -/

theorem double_nat {n : Nat} (h : n < 2 ^ 53) : Double (n : ℝ) := by
  have := double_int (n : ℤ) (by rw [abs_of_nonneg (Int.natCast_nonneg n)]; exact_mod_cast h)
  simpa using this

theorem node_angle (n r : Nat) (hr : r ≤ n) :
    Real.pi / (2 * (n + 1)) ≤ Real.pi / 2 * (2 * (r : ℝ) + 1) / ((n : ℝ) + 1) ∧
      Real.pi / 2 * (2 * (r : ℝ) + 1) / ((n : ℝ) + 1) ≤ Real.pi - Real.pi / (2 * (n + 1)) := by
  have hp := Real.pi_pos
  have hr' : (r : ℝ) ≤ n := by exact_mod_cast hr
  have h0 : (0 : ℝ) < n + 1 := by positivity
  have hr0 : (0 : ℝ) ≤ r := Nat.cast_nonneg r
  constructor
  · rw [div_le_div_iff₀ (by positivity) h0]
    have : Real.pi * (n + 1) * 1 ≤ Real.pi * (n + 1) * (2 * r + 1) := mul_le_mul_of_nonneg_left (by linarith) (by positivity)
    nlinarith
  · rw [show Real.pi - Real.pi / (2 * ((n : ℝ) + 1)) = Real.pi * (2 * n + 1) / (2 * (n + 1)) by field_simp; ring, div_le_div_iff₀ h0 (by positivity)]
    have : Real.pi * (n + 1) * (2 * r + 1) ≤ Real.pi * (n + 1) * (2 * n + 1) := mul_le_mul_of_nonneg_left (by linarith) (by positivity)
    nlinarith

/-- The nodes are at a distance of `1 / (2 (n+1)^2)` from the ends of `[-1, 1]`. -/
theorem abs_chebNode_le (n r : Nat) (hr : r ≤ n) : |chebNode n r| ≤ 1 - 1 / (2 * ((n : ℝ) + 1) ^ 2) := by
  have key : ∀ θ : ℝ, Real.pi / (2 * (n + 1)) ≤ θ → θ ≤ Real.pi → Real.cos θ ≤ 1 - 1 / (2 * ((n : ℝ) + 1) ^ 2) := by
    intro θ h1 h2
    have hp := Real.pi_pos
    have h0 : 0 ≤ θ := le_trans (by positivity) h1
    have hs := Real.mul_le_sin (x := θ / 2) (by linarith) (by linarith)
    have h3 : 1 / (2 * ((n : ℝ) + 1)) ≤ Real.sin (θ / 2) := by
      refine le_trans ?_ hs
      rw [show 2 / Real.pi * (θ / 2) = θ / Real.pi by field_simp, le_div_iff₀ hp]
      calc 1 / (2 * ((n : ℝ) + 1)) * Real.pi = Real.pi / (2 * (n + 1)) := by ring
        _ ≤ θ := h1
    have h4 : Real.cos θ = 1 - 2 * Real.sin (θ / 2) ^ 2 := by
      have := Real.cos_two_mul (θ / 2)
      rw [show 2 * (θ / 2) = θ by ring] at this
      have := Real.sin_sq_add_cos_sq (θ / 2)
      linarith
    have h5 : (1 / (2 * ((n : ℝ) + 1))) ^ 2 ≤ Real.sin (θ / 2) ^ 2 := pow_le_pow_left₀ (by positivity) h3 2
    rw [h4]
    have : 2 * (1 / (2 * ((n : ℝ) + 1))) ^ 2 = 1 / (2 * ((n : ℝ) + 1) ^ 2) := by field_simp
    linarith
  obtain ⟨h1, h2⟩ := node_angle n r hr
  have hp : 0 < Real.pi / (2 * ((n : ℝ) + 1)) := by have := Real.pi_pos; positivity
  unfold chebNode
  rw [abs_le]
  constructor
  · have := key _ (show Real.pi / (2 * (n + 1)) ≤ Real.pi - Real.pi / 2 * (2 * (r : ℝ) + 1) / ((n : ℝ) + 1) by linarith) (by linarith)
    rw [Real.cos_pi_sub] at this
    linarith
  · exact key _ h1 (by linarith)

theorem chebNodeR_close (hr : ToNearest rnd) (hc : CosClose cosR) {n r : Nat} (hn : n < 2 ^ 50) (hrn : r ≤ n) :
    |chebNodeR rnd cosR n r - chebNode n r| ≤ 21 / 2 ^ 53 := by
  have e1 : rnd (rnd (2 * (r : ℝ)) + 1) = 2 * (r : ℝ) + 1 := by
    have h1 : rnd (2 * (r : ℝ)) = 2 * (r : ℝ) := by
      have := toNearest_double hr (double_nat (n := 2 * r) (by omega))
      push_cast at this
      exact this
    have := toNearest_double hr (double_nat (n := 2 * r + 1) (by omega))
    push_cast at this
    rw [h1, this]
  have e2 : rnd ((n : ℝ) + 1) = (n : ℝ) + 1 := by
    have := toNearest_double hr (double_nat (n := n + 1) (by omega))
    push_cast at this
    exact this
  have hrel : Rel 5 (Real.pi / 2 * (2 * (r : ℝ) + 1) / ((n : ℝ) + 1)) (rnd (rnd (MU_PI_2_R rnd * (2 * (r : ℝ) + 1)) / ((n : ℝ) + 1))) := by
    have h1 : Rel 3 (Real.pi / 2) (MU_PI_2_R rnd) := by
      have := ((rel_pi hr).mul (Rel.exact (1 / 2))).round hr
      rwa [show Real.pi * (1 / 2) = Real.pi / 2 by ring] at this
    exact ((((h1.mul (Rel.exact (2 * (r : ℝ) + 1))).round hr).div (Rel.exact ((n : ℝ) + 1))).round hr)
  obtain ⟨a1, a2⟩ := node_angle n r hrn
  have hp := Real.pi_pos
  have hp4 := Real.pi_lt_d2
  have a0 : 0 < Real.pi / (2 * ((n : ℝ) + 1)) := by positivity
  have hb := hrel.bound (by norm_num)
  rw [abs_of_pos (lt_of_lt_of_le a0 a1)] at hb
  unfold chebNodeR chebNode
  rw [e1, e2]
  generalize rnd (rnd (MU_PI_2_R rnd * (2 * (r : ℝ) + 1)) / ((n : ℝ) + 1)) = ψ at hb ⊢
  generalize Real.pi / 2 * (2 * (r : ℝ) + 1) / ((n : ℝ) + 1) = θ at hb a1 a2 ⊢
  have h1 := hc ψ
  have h2 : |Real.cos ψ - Real.cos θ| ≤ |ψ - θ| := Real.abs_cos_sub_cos_le _ _
  have h3 : |cosR ψ - Real.cos θ| ≤ |cosR ψ - Real.cos ψ| + |Real.cos ψ - Real.cos θ| := by
    have := abs_add_le (cosR ψ - Real.cos ψ) (Real.cos ψ - Real.cos θ)
    rwa [sub_add_sub_cancel] at this
  norm_num at hb h1 ⊢
  linarith

/-- What the computed nodes are: close to the exact ones, and in the domain. -/
theorem abscissaeR_ok (hr : ToNearest rnd) (hc : CosClose cosR) {s : Seg ℝ} (hX : s.dom.Usual) {n : Nat}
    (hn : s.dom.cond * ((n : ℝ) + 1) ^ 2 ≤ 2 ^ 40) :
    ∃ t x : Nat → ℝ, abscissaeR rnd cosR s n = .ok ((List.range (n + 1)).map (fun r => (t r, x r))) ∧ ∀ r, r ≤ n →
      |t r| ≤ 1 ∧ |t r - chebNode n r| ≤ 21 / 2 ^ 53 ∧ s.dom.Mem (x r) ∧ |s.dom.unit (x r) - chebNode n r| ≤ 16 * s.dom.cond / 2 ^ 53 := by
  have hκ := Domain.cond_ge hX
  have hN : (1 : ℝ) ≤ (n : ℝ) + 1 := by have : (0 : ℝ) ≤ n := Nat.cast_nonneg n; linarith
  have hN2 : ((n : ℝ) + 1) ^ 2 ≤ 2 ^ 39 := by nlinarith [sq_nonneg ((n : ℝ) + 1)]
  have hn50 : n < 2 ^ 50 := by
    by_contra h
    push Not at h
    have : (2 : ℝ) ^ 50 ≤ n := by exact_mod_cast h
    nlinarith
  have hN0 : (0 : ℝ) < ((n : ℝ) + 1) ^ 2 := by positivity
  -- the margin
  have hm : 32 * s.dom.cond / 2 ^ 53 ≤ 1 / (2 * ((n : ℝ) + 1) ^ 2) := by
    rw [div_le_div_iff₀ (by positivity) (by positivity)]
    nlinarith
  have hm2 : 1 / (2 * ((n : ℝ) + 1) ^ 2) ≤ 1 / 2 := by
    rw [div_le_div_iff₀ (by positivity) (by positivity)]
    nlinarith
  have hpoint : ∀ r, r ≤ n → ∃ x, s.toSegmentR rnd (chebNodeR rnd cosR n r) = .ok x ∧ s.dom.Mem x ∧
      |s.dom.unit x - chebNode n r| ≤ 16 * s.dom.cond / 2 ^ 53 := by
    intro r hrn
    have h1 := chebNodeR_close hr hc hn50 hrn
    have h2 := abs_chebNode_le n r hrn
    generalize chebNodeR rnd cosR n r = τ at h1 ⊢
    generalize chebNode n r = t at h1 h2 ⊢
    have hu : (21 : ℝ) / 2 ^ 53 ≤ 16 * s.dom.cond / 2 ^ 53 := by
      rw [div_le_div_iff_of_pos_right (by positivity)]; linarith
    have hτ : |τ| ≤ 1 - 1 / (2 * ((n : ℝ) + 1) ^ 2) / 2 := by
      have := abs_add_le (τ - t) t
      rw [sub_add_cancel] at this
      have h3 : 16 * s.dom.cond / 2 ^ 53 = 32 * s.dom.cond / 2 ^ 53 / 2 := by ring
      linarith
    have hτ1 : |τ| ≤ 1 := by
      have : 0 < 1 / (2 * ((n : ℝ) + 1) ^ 2) := by positivity
      linarith
    cases s with
    | closed a b =>
      have hab : a < b := hX
      have hd : 0 < b - a := by linarith
      refine ⟨_, rfl, ?_⟩
      have hnear := (((((Near.exact (1 / 2)).mul ((((Near.exact b).sub (Near.exact a))).round hr)).round hr).mul (Near.exact τ)).round hr)
      have hnear2 := (((Near.exact (1 / 2)).mul ((((Near.exact b).add (Near.exact a))).round hr)).round hr)
      have he := ((hnear.add (hnear2.upto (Nat.le_succ _))).round hr).err
      generalize rnd (rnd (rnd (1 / 2 * rnd (b - a)) * τ) + rnd (1 / 2 * rnd (b + a))) = x at he ⊢
      set m := max |a| |b| with hmdef
      have m1 : |a| ≤ m := le_max_left _ _
      have m2 : |b| ≤ m := le_max_right _ _
      have hκe : (Seg.closed a b).dom.cond = 4 * m / (b - a) := rfl
      have hg : gam 4 ≤ 5 * uround := (gam_le (by norm_num)).trans (by norm_num)
      have hq : |(1 / 2 : ℝ)| * (|b| + |a|) * |τ| + |(1 / 2 : ℝ)| * (|b| + |a|) ≤ 2 * m := by
        rw [show |(1 / 2 : ℝ)| = 1 / 2 by norm_num]
        have : 1 / 2 * (|b| + |a|) * |τ| ≤ 1 / 2 * (|b| + |a|) * 1 := by gcongr
        linarith
      have hm0 : 0 ≤ m := (abs_nonneg a).trans m1
      have he2 : |x - (1 / 2 * (b - a) * τ + 1 / 2 * (b + a))| ≤ 10 / 2 ^ 53 * m := by
        refine he.trans ?_
        refine (mul_le_mul hg hq ?_ (by have := uround_nonneg; linarith)).trans ?_
        · positivity
        · unfold uround; apply le_of_eq; ring
      have hunit : (Seg.closed a b).dom.unit x - τ = 2 / (b - a) * (x - (1 / 2 * (b - a) * τ + 1 / 2 * (b + a))) := by
        show (2 * x - a - b) / (b - a) - τ = _
        field_simp
        ring
      have hdist : |(Seg.closed a b).dom.unit x - τ| ≤ 5 * (Seg.closed a b).dom.cond / 2 ^ 53 := by
        rw [hunit, abs_mul, abs_of_pos (by positivity : 0 < 2 / (b - a)), hκe]
        calc 2 / (b - a) * |x - (1 / 2 * (b - a) * τ + 1 / 2 * (b + a))| ≤ 2 / (b - a) * (10 / 2 ^ 53 * m) := by gcongr
          _ = _ := by ring
      have hall : |(Seg.closed a b).dom.unit x - t| ≤ 16 * (Seg.closed a b).dom.cond / 2 ^ 53 := by
        have := abs_add_le ((Seg.closed a b).dom.unit x - τ) (τ - t)
        rw [sub_add_sub_cancel] at this
        have h4 : 5 * (Seg.closed a b).dom.cond / 2 ^ 53 + 21 / 2 ^ 53 ≤ 16 * (Seg.closed a b).dom.cond / 2 ^ 53 := by
          rw [← add_div, div_le_div_iff_of_pos_right (by positivity)]; linarith
        linarith
      refine ⟨?_, hall⟩
      have hone : |(Seg.closed a b).dom.unit x| ≤ 1 := by
        have := abs_add_le ((Seg.closed a b).dom.unit x - t) t
        rw [sub_add_cancel] at this
        have h3 : 16 * (Seg.closed a b).dom.cond / 2 ^ 53 ≤ 32 * (Seg.closed a b).dom.cond / 2 ^ 53 := by
          rw [div_le_div_iff_of_pos_right (by positivity)]; linarith
        linarith
      obtain ⟨o1, o2⟩ := abs_le.1 hone
      have hx : (Seg.closed a b).dom.unit x = (2 * x - a - b) / (b - a) := rfl
      rw [hx, le_div_iff₀ hd] at o1
      rw [hx, div_le_iff₀ hd] at o2
      exact ⟨by linarith, by linarith⟩
    | opened a =>
      have ha : 0 < a := hX
      have hlt : 0 < 1 - τ := by
        have := (abs_le.1 hτ).2
        have h3 : 0 < 1 / (2 * ((n : ℝ) + 1) ^ 2) := by positivity
        linarith
      have hne : rnd (1 - τ) ≠ 0 := toNearest_ne_zero hr hlt.ne'
      refine ⟨_, by rw [Seg.toSegmentR, fdiv_ok hne, Res.ok_bind, Res.pure_eq], ?_⟩
      have hrel := (((Rel.exact (2 : ℝ)).mul (((Rel.exact a).div ((Rel.exact (1 - τ)).round hr)).round hr)).round hr)
      have hxpos : 0 < rnd (2 * rnd (a / rnd (1 - τ))) :=
        toNearest_pos hr (mul_pos two_pos (toNearest_pos hr (div_pos ha (toNearest_pos hr hlt))))
      generalize rnd (2 * rnd (a / rnd (1 - τ))) = x at hrel hxpos ⊢
      have hinv := ((Rel.exact (2 * a)).div hrel).bound (by norm_num)
      have e1 : 2 * a / (2 * (a / (1 - τ))) = 1 - τ := by field_simp
      rw [e1, abs_of_pos hlt] at hinv
      have hunit : (Seg.opened a).dom.unit x = 1 - 2 * a / x := rfl
      have h2 : 1 - τ ≤ 2 := by have := (abs_le.1 hτ1).1; linarith
      have hdist : |(Seg.opened a).dom.unit x - τ| ≤ 8 / 2 ^ 53 := by
        rw [hunit, show 1 - 2 * a / x - τ = -(2 * a / x - (1 - τ)) by ring, abs_neg]
        refine hinv.trans ?_
        norm_num
        linarith
      have hκe : (Seg.opened a).dom.cond = 3 := rfl
      have hall : |(Seg.opened a).dom.unit x - t| ≤ 16 * (Seg.opened a).dom.cond / 2 ^ 53 := by
        have := abs_add_le ((Seg.opened a).dom.unit x - τ) (τ - t)
        rw [sub_add_sub_cancel] at this
        rw [hκe]
        norm_num at this h1 hdist ⊢
        linarith
      refine ⟨?_, hall⟩
      have hone : |(Seg.opened a).dom.unit x| ≤ 1 := by
        have := abs_add_le ((Seg.opened a).dom.unit x - t) t
        rw [sub_add_cancel] at this
        have h3 : 16 * (Seg.opened a).dom.cond / 2 ^ 53 ≤ 32 * (Seg.opened a).dom.cond / 2 ^ 53 := by
          rw [div_le_div_iff_of_pos_right (by positivity)]; linarith
        linarith
      have o1 := (abs_le.1 hone).1
      rw [hunit] at o1
      have o2 : 2 * a / x ≤ 2 := by linarith
      rw [div_le_iff₀ hxpos] at o2
      show a ≤ x
      linarith
  choose! x hx using hpoint
  refine ⟨chebNodeR rnd cosR n, x, ?_, fun r hrn => ⟨?_, chebNodeR_close hr hc hn50 hrn, (hx r hrn).2.1, (hx r hrn).2.2⟩⟩
  · unfold abscissaeR
    exact collect_ok _ fun r hrn => by simp only [(hx r (by omega)).1, Res.ok_bind, Res.pure_eq]
  · have h1 := chebNodeR_close hr hc hn50 hrn
    have h2 := abs_chebNode_le n r hrn
    have := abs_add_le (chebNodeR rnd cosR n r - chebNode n r) (chebNode n r)
    rw [sub_add_cancel] at this
    have hu : (21 : ℝ) / 2 ^ 53 ≤ 32 * s.dom.cond / 2 ^ 53 := by
      rw [div_le_div_iff_of_pos_right (by positivity)]; linarith
    linarith

/-! ## The coefficients -/

/-- The partial sums of a loop that adds `g 0`, `g 1`, ... and rounds. -/
noncomputable def accR (rnd : ℝ → ℝ) (g : Nat → ℝ) (a : ℝ) : Nat → ℝ
  | 0 => a
  | k + 1 => rnd (accR rnd g a k + g k)

theorem accR_near (hr : ToNearest rnd) {g p Q : Nat → ℝ} {k₀ : ℕ} (h : ∀ r, Near k₀ (Q r) (p r) (g r)) :
    ∀ k, Near (k + k₀) (∑ r ∈ range k, Q r) (∑ r ∈ range k, p r) (accR rnd g 0 k)
  | 0 => by
    have : (0 : ℝ) ≤ 0 := le_rfl
    exact ⟨by simp [accR], by simp⟩
  | k + 1 => by
    rw [sum_range_succ, sum_range_succ, accR]
    have := ((accR_near hr h k).add ((h k).upto (show k₀ ≤ k + k₀ by omega))).round hr
    rwa [show k + k₀ + 1 = k + 1 + k₀ by omega] at this

theorem accum_accR {σ ι : Type} [DecidableEq ι] (S : Store σ ι ℝ) {p : ι} {n : Nat} {body : Nat → σ → Res σ} (g : Nat → ℝ)
    (h : ∀ i, i < n → ∀ e, body i (S.rep e) = .ok (S.rep (Function.update e p (rnd (e p + g i))))) (e : ι → ℝ) :
    forRange 0 n body (S.rep e) = .ok (S.rep (Function.update e p (accR rnd g (e p) n))) := by
  have := forRange_ok (lo := 0) (hi := n) (Nat.zero_le n) (f := body) (fun k => S.rep (Function.update e p (accR rnd g (e p) k))) (by
    intro i _ h2
    rw [h i h2, Function.update_idem, Function.update_self, accR])
  simpa [accR] using this

namespace CS1

variable {s : CS1 ℝ} {F : ℝ → ℝ} {n : Nat} {sx : Seg ℝ} {a : Nat → ℝ}

/-- The coefficient `i` after `Compute_ai` in double, from the nodes computed. -/
noncomputable def nextR (rnd : ℝ → ℝ) (TR : Nat → ℝ → ℝ) (F : ℝ → ℝ) (n : Nat) (t x : Nat → ℝ) (i : Nat) (v : ℝ) : ℝ :=
  let b := rnd (accR rnd (fun r => rnd (F (x r) * TR i (t r))) v (n + 1) * rnd (2 / rnd ((n : ℝ) + 1)))
  if i = 0 then rnd (b / 2) else b

theorem computeAiR_ok (B : Build) (h : s.Holds F n sx a) {t x : Nat → ℝ}
    (hx : abscissaeR rnd cosR sx n = .ok ((List.range (n + 1)).map (fun r => (t r, x r)))) :
    ∃ s', s.computeAiR rnd cosR TR B = .ok s' ∧ s'.Holds F n sx (fun i => nextR rnd TR F n t x i (a i)) := by
  obtain ⟨rfl, rfl, rfl, ha⟩ := h
  unfold computeAiR
  rw [hx, Res.ok_bind, ha]
  let S := vecStore ℝ B (s.m_order_x + 1)
  refine ⟨_, (Res.bind_of_eq (S.sweep (fun i p => p = i) (nextR rnd TR s.m_function s.m_order_x t x) (by intro i j p h1 h2; omega)
    (fun i hi e => ?_) a)).trans rfl, rfl, rfl, rfl, ?_⟩
  · refine (Res.bind_of_eq (accum_accR (rnd := rnd) S (p := i)
      (fun r => rnd (s.m_function (x r) * TR i (t r))) (fun r hr e => ?_) e)).trans ?_
    · rw [vAt_map _ hr, Res.ok_bind]
      exact S.modify hi e (fun a => rnd (a + rnd (s.m_function (x r) * TR i (t r))))
    refine (Res.bind_of_eq (S.get_ok _ i hi)).trans ((Res.bind_of_eq (S.set_ok _ i _ hi)).trans ?_)
    rw [Function.update_idem, Function.update_self, Store.update_eq_if i (nextR rnd TR s.m_function s.m_order_x t x) e]
    split_ifs with h0
    · refine (Res.bind_of_eq (S.get_ok _ i hi)).trans ((S.set_ok _ i _ hi).trans ?_)
      rw [Function.update_idem, Function.update_self, nextR, if_pos h0]
    · rw [nextR, if_neg h0]
      rfl
  · refine List.map_congr_left (fun i hi => ?_)
    rw [pick_pos ⟨i, by simpa using hi, rfl⟩]

end CS1

theorem nextR_near (hr : ToNearest rnd) {F : ℝ → ℝ} {n : Nat} (hn : n < 2 ^ 50) (t x : Nat → ℝ) (i : Nat) :
    Near (n + 5) ((∑ r ∈ range (n + 1), |F (x r) * TR i (t r)|) * chebWeight n i) ((∑ r ∈ range (n + 1), F (x r) * TR i (t r)) * chebWeight n i)
      (CS1.nextR rnd TR F n t x i 0) := by
  have e2 : rnd ((n : ℝ) + 1) = (n : ℝ) + 1 := by
    have := toNearest_double hr (double_nat (n := n + 1) (by omega))
    push_cast at this
    exact this
  have h1 := accR_near hr (g := fun r => rnd (F (x r) * TR i (t r))) (k₀ := 1) (fun r => (Near.exact (F (x r) * TR i (t r))).round hr) (n + 1)
  have hw : |2 / ((n : ℝ) + 1)| = 2 / ((n : ℝ) + 1) := abs_of_nonneg (by positivity)
  have h2 := (h1.mul ((Near.exact (2 / ((n : ℝ) + 1))).round hr)).round hr
  rw [hw] at h2
  unfold CS1.nextR
  rw [e2]
  split_ifs with h0
  · have h3 := (h2.mul (Near.exact (1 / 2))).round hr
    rw [chebWeight, if_pos h0]
    have e : ∀ S : ℝ, S * (2 / ((n : ℝ) + 1)) * (1 / 2) = S * (1 / ((n : ℝ) + 1)) := fun S => by ring
    rw [show |(1 / 2 : ℝ)| = 1 / 2 by norm_num, e, e] at h3
    show Near _ _ _ (rnd (_ / 2))
    rw [div_eq_mul_one_div _ (2 : ℝ)]
    exact h3
  · rw [chebWeight, if_neg h0]
    exact h2.upto (by omega)

theorem sum_range_le_const {n : Nat} {f : Nat → ℝ} {c : ℝ} (h : ∀ r, r ≤ n → f r ≤ c) : ∑ r ∈ range (n + 1), f r ≤ ((n : ℝ) + 1) * c := by
  have := sum_le_sum (s := range (n + 1)) fun r hr => h r (by have := mem_range.1 hr; omega)
  rwa [sum_const, card_range, nsmul_eq_mul, Nat.cast_add, Nat.cast_one] at this

theorem coeff_close (hr : ToNearest rnd) {F G : ℝ → ℝ} {X : Domain ℝ} (hX : X.Usual) {n : Nat} (hn : X.cond * ((n : ℝ) + 1) ^ 2 ≤ 2 ^ 40)
    {ε φ L M : ℝ} (hT : PolyClose ε n TR) (hε : ε ≤ 1) (hF : Computes1 F G X φ L M) {t x : Nat → ℝ}
    (hx : ∀ r, r ≤ n → |t r| ≤ 1 ∧ |t r - chebNode n r| ≤ 21 / 2 ^ 53 ∧ X.Mem (x r) ∧ |X.unit (x r) - chebNode n r| ≤ 16 * X.cond / 2 ^ 53) {i : Nat} (hi : i ≤ n) :
    |CS1.nextR rnd TR F n t x i 0 - CS1.next G n X i 0| ≤ coeffErr n X.cond ε φ L M := by
  have hκ := Domain.cond_ge hX
  have hN0 : (0 : ℝ) ≤ n := Nat.cast_nonneg n
  have hN2 : ((n : ℝ) + 1) ^ 2 ≤ 2 ^ 39 := by nlinarith [sq_nonneg ((n : ℝ) + 1)]
  have hn20 : n < 2 ^ 20 := by
    by_contra h
    push Not at h
    have : (2 : ℝ) ^ 20 ≤ n := by exact_mod_cast h
    nlinarith
  have hi2 : (i : ℝ) ^ 2 ≤ (n : ℝ) ^ 2 := pow_le_pow_left₀ (Nat.cast_nonneg i) (by exact_mod_cast hi) 2
  have hφ : 0 ≤ φ := (abs_nonneg _).trans (hF.close _ (hx 0 (Nat.zero_le n)).2.2.1)
  have hM : 0 ≤ M := (abs_nonneg _).trans (hF.bound _ (hx 0 (Nat.zero_le n)).2.2.1)
  have hε0 : 0 ≤ ε := (abs_nonneg _).trans (hT 0 (Nat.zero_le n) 0 (by norm_num))
  have hL := hF.rate
  have hTR : ∀ r, r ≤ n → |TR i (t r)| ≤ 2 := by
    intro r hrn
    have h1 := hT i hi (t r) (hx r hrn).1
    rw [← chebT_eq] at h1
    have h2 := abs_chebT_le i (hx r hrn).1
    have := abs_add_le (TR i (t r) - chebT i (t r)) (chebT i (t r))
    rw [sub_add_cancel] at this
    linarith
  have hFx : ∀ r, r ≤ n → |F (x r)| ≤ M + φ := by
    intro r hrn
    have h1 := hF.close _ (hx r hrn).2.2.1
    have h2 := hF.bound _ (hx r hrn).2.2.1
    have := abs_add_le (F (x r) - G (x r)) (G (x r))
    rw [sub_add_cancel] at this
    linarith
  have hp : ∀ r, r ≤ n → |F (x r) * TR i (t r)| ≤ 2 * (M + φ) := by
    intro r hrn
    rw [abs_mul]
    have := mul_le_mul (hFx r hrn) (hTR r hrn) (abs_nonneg _) (by linarith)
    linarith
  have hpq : ∀ r, r ≤ n → |F (x r) * TR i (t r) - G (X.node n r) * chebT i (chebNode n r)| ≤
      2 * (φ + 16 * X.cond * L / 2 ^ 53) + M * (ε + 21 * n ^ 2 / 2 ^ 53) := by
    intro r hrn
    obtain ⟨x1, x2, x3, x4⟩ := hx r hrn
    have hnode : X.Mem (X.node n r) := ((C37_nodes hX).1 r hrn).1
    have h1 : |F (x r) - G (X.node n r)| ≤ φ + 16 * X.cond * L / 2 ^ 53 := by
      have e1 := hF.close _ x3
      have e2 := hF.lipschitz _ _ x3 hnode
      rw [(node_defined (Domain.usual_proper hX) hrn).2] at e2
      have e3 := e2.trans (mul_le_mul_of_nonneg_left x4 hL)
      have := abs_add_le (F (x r) - G (x r)) (G (x r) - G (X.node n r))
      rw [sub_add_sub_cancel] at this
      rw [show L * (16 * X.cond / 2 ^ 53) = 16 * X.cond * L / 2 ^ 53 by ring] at e3
      linarith
    have h2 : |TR i (t r) - chebT i (chebNode n r)| ≤ ε + 21 * n ^ 2 / 2 ^ 53 := by
      have hnle : |chebNode n r| ≤ 1 := by
        have := abs_chebNode_le n r hrn
        have h3 : 0 < 1 / (2 * ((n : ℝ) + 1) ^ 2) := by positivity
        linarith
      have e1 := hT i hi (t r) x1
      rw [← chebT_eq] at e1
      have e2 := chebT_lipschitz i x1 hnle
      have e3 : (i : ℝ) ^ 2 * |t r - chebNode n r| ≤ (n : ℝ) ^ 2 * (21 / 2 ^ 53) := mul_le_mul hi2 x2 (abs_nonneg _) (by positivity)
      have := abs_add_le (TR i (t r) - chebT i (t r)) (chebT i (t r) - chebT i (chebNode n r))
      rw [sub_add_sub_cancel] at this
      rw [show (n : ℝ) ^ 2 * (21 / 2 ^ 53) = 21 * n ^ 2 / 2 ^ 53 by ring] at e3
      linarith
    rw [show F (x r) * TR i (t r) - G (X.node n r) * chebT i (chebNode n r) =
      (F (x r) - G (X.node n r)) * TR i (t r) + G (X.node n r) * (TR i (t r) - chebT i (chebNode n r)) by ring]
    refine (abs_add_le _ _).trans ?_
    rw [abs_mul, abs_mul]
    have e1 := mul_le_mul h1 (hTR r hrn) (abs_nonneg _) ((abs_nonneg _).trans h1)
    have e2 := mul_le_mul (hF.bound _ hnode) h2 (abs_nonneg _) hM
    linarith
  have hw0 : 0 ≤ chebWeight n i := by unfold chebWeight; split_ifs <;> positivity
  have hw : ((n : ℝ) + 1) * chebWeight n i ≤ 2 := by
    unfold chebWeight
    split_ifs
    · field_simp; norm_num
    · field_simp; norm_num
  have hs1 := (nextR_near (TR := TR) hr (F := F) (n := n) (by omega) t x i).err
  have hg : gam (n + 5) ≤ (n + 6) / 2 ^ 53 := by
    have := gam_le (k := n + 5) (by omega)
    push_cast at this
    unfold uround at this
    calc _ ≤ _ := this
      _ = _ := by ring
  have hsum1 : (∑ r ∈ range (n + 1), |F (x r) * TR i (t r)|) * chebWeight n i ≤ 4 * (M + φ) := by
    have h1 : ∑ r ∈ range (n + 1), |F (x r) * TR i (t r)| ≤ ((n : ℝ) + 1) * (2 * (M + φ)) := by
      have := sum_le_sum (s := range (n + 1)) fun r hr' => hp r (by have := mem_range.1 hr'; omega)
      simpa using this
    calc _ ≤ ((n : ℝ) + 1) * (2 * (M + φ)) * chebWeight n i := mul_le_mul_of_nonneg_right h1 hw0
      _ = (((n : ℝ) + 1) * chebWeight n i) * (2 * (M + φ)) := by ring
      _ ≤ 2 * (2 * (M + φ)) := mul_le_mul_of_nonneg_right hw (by linarith)
      _ = _ := by ring
  have hsum0 : 0 ≤ (∑ r ∈ range (n + 1), |F (x r) * TR i (t r)|) * chebWeight n i :=
    mul_nonneg (sum_nonneg fun _ _ => abs_nonneg _) hw0
  have hA : |CS1.nextR rnd TR F n t x i 0 - (∑ r ∈ range (n + 1), F (x r) * TR i (t r)) * chebWeight n i| ≤ 4 * ((n + 6) / 2 ^ 53) * (M + φ) := by
    refine hs1.trans ((mul_le_mul hg hsum1 hsum0 (by positivity)).trans ?_)
    apply le_of_eq; ring
  have hB : |(∑ r ∈ range (n + 1), F (x r) * TR i (t r)) * chebWeight n i - CS1.next G n X i 0| ≤
      4 * (φ + 16 * X.cond * L / 2 ^ 53) + 2 * M * (ε + 21 * n ^ 2 / 2 ^ 53) := by
    rw [CS1.next, zero_add, ← range_eq_Ico, ← sub_mul, ← sum_sub_distrib, abs_mul, abs_of_nonneg hw0]
    have h1 : |∑ r ∈ range (n + 1), (F (x r) * TR i (t r) - G (X.node n r) * chebT i (chebNode n r))| ≤
        ((n : ℝ) + 1) * (2 * (φ + 16 * X.cond * L / 2 ^ 53) + M * (ε + 21 * n ^ 2 / 2 ^ 53)) := by
      refine (abs_sum_le_sum_abs _ _).trans ?_
      exact sum_range_le_const hpq
    have h0 : 0 ≤ 2 * (φ + 16 * X.cond * L / 2 ^ 53) + M * (ε + 21 * n ^ 2 / 2 ^ 53) := by
      have : 0 ≤ X.cond := by linarith
      positivity
    calc _ ≤ ((n : ℝ) + 1) * (2 * (φ + 16 * X.cond * L / 2 ^ 53) + M * (ε + 21 * n ^ 2 / 2 ^ 53)) * chebWeight n i := mul_le_mul_of_nonneg_right h1 hw0
      _ = (((n : ℝ) + 1) * chebWeight n i) * (2 * (φ + 16 * X.cond * L / 2 ^ 53) + M * (ε + 21 * n ^ 2 / 2 ^ 53)) := by ring
      _ ≤ 2 * (2 * (φ + 16 * X.cond * L / 2 ^ 53) + M * (ε + 21 * n ^ 2 / 2 ^ 53)) := mul_le_mul_of_nonneg_right hw h0
      _ = _ := by ring
  have := abs_add_le (CS1.nextR rnd TR F n t x i 0 - (∑ r ∈ range (n + 1), F (x r) * TR i (t r)) * chebWeight n i)
    ((∑ r ∈ range (n + 1), F (x r) * TR i (t r)) * chebWeight n i - CS1.next G n X i 0)
  rw [sub_add_sub_cancel] at this
  unfold coeffErr
  linarith

/-- The exact coefficients are at most twice the function in magnitude. -/
theorem abs_next_le {G : ℝ → ℝ} {X : Domain ℝ} (hX : X.Usual) {n : Nat} {M : ℝ} (hG : ∀ x, X.Mem x → |G x| ≤ M) (i : Nat) :
    |CS1.next G n X i 0| ≤ 2 * M := by
  have hM : 0 ≤ M := (abs_nonneg _).trans (hG _ ((C37_nodes hX (n := n)).1 0 (Nat.zero_le n)).1)
  have hw0 : 0 ≤ chebWeight n i := by unfold chebWeight; split_ifs <;> positivity
  have hw : ((n : ℝ) + 1) * chebWeight n i ≤ 2 := by
    unfold chebWeight
    split_ifs
    · field_simp; norm_num
    · field_simp; norm_num
  rw [CS1.next, zero_add, ← range_eq_Ico, abs_mul, abs_of_nonneg hw0]
  have h1 : |∑ r ∈ range (n + 1), G (X.node n r) * chebT i (chebNode n r)| ≤ ((n : ℝ) + 1) * M := by
    refine (abs_sum_le_sum_abs _ _).trans ?_
    have := sum_le_sum (s := range (n + 1)) (f := fun r => |G (X.node n r) * chebT i (chebNode n r)|) (g := fun _ => M) fun r hr' => by
      have hrn : r ≤ n := by have := mem_range.1 hr'; omega
      rw [abs_mul]
      have h2 := hG _ ((C37_nodes hX).1 r hrn).1
      have h3 : |chebT i (chebNode n r)| ≤ 1 := by
        refine abs_chebT_le i ?_
        have := abs_chebNode_le n r hrn
        have h3 : 0 < 1 / (2 * ((n : ℝ) + 1) ^ 2) := by positivity
        linarith
      have := mul_le_mul h2 h3 (abs_nonneg _) hM
      linarith
    simpa using this
  calc _ ≤ ((n : ℝ) + 1) * M * chebWeight n i := mul_le_mul_of_nonneg_right h1 hw0
    _ = (((n : ℝ) + 1) * chebWeight n i) * M := by ring
    _ ≤ 2 * M := mul_le_mul_of_nonneg_right hw hM

/-- The program in double arithmetic against the exact interpolant. -/
theorem seriesR_close (hr : ToNearest rnd) (hc : CosClose cosR) (B : Build) {F G : ℝ → ℝ} {n : Nat} {s : CS1 ℝ} {X : Domain ℝ} (hs : Fresh1 F n s X)
    (hX : X.Usual) (hn : X.cond * ((n : ℝ) + 1) ^ 2 ≤ 2 ^ 40) {ε φ L M : ℝ} (hT : PolyClose ε n TR) (hε : ε ≤ 1) (hF : Computes1 F G X φ L M) :
    ∃ s', s.computeAiR rnd cosR TR B = .ok s' ∧ ∀ x, X.Mem x → ∃ v, s'.evaluateR rnd B x = .ok v ∧
      |v - chebInterp n (fun r => G (X.node n r)) (X.unit x)| ≤ seriesErr n X.cond ε φ L M := by
  obtain ⟨sx, rfl, h⟩ := hs.holds
  obtain ⟨t, x, hx, hx'⟩ := abscissaeR_ok hr hc hX hn
  obtain ⟨s', h1, h2⟩ := CS1.computeAiR_ok (TR := TR) B h hx
  refine ⟨s', h1, fun y hy => ?_⟩
  obtain ⟨b1, b2, b3, b4⟩ := h2
  obtain ⟨v, v1, -, v2⟩ := C132_error_1d hr B (s := s') (by rw [b4, b2]; simp) (by rw [b3]; exact hX) (x := y) (by rw [b3]; exact hy)
  refine ⟨v, v1, ?_⟩
  rw [b2, b3] at v2
  have hget : ∀ i, i < n + 1 → s'.m_ai.getD i 0 = CS1.nextR rnd TR F n t x i 0 := fun i hi => by
    rw [b4]
    simp [List.getD, hi]
  have hco : ∀ i ∈ range (n + 1), |s'.m_ai.getD i 0 - CS1.next G n sx.dom i 0| ≤ coeffErr n sx.dom.cond ε φ L M := fun i hi => by
    have hi' := mem_range.1 hi
    rw [hget i hi']
    exact coeff_close hr hX hn hT hε hF hx' (by omega)
  have hE := chebErr_nonneg n (Domain.cond_ge hX)
  have hu := unit_le hX hy
  have hd : |cheb1 n (fun i => s'.m_ai.getD i 0) (sx.dom.unit y) - cheb1 n (fun i => CS1.next G n sx.dom i 0) (sx.dom.unit y)| ≤
      (n + 1) * coeffErr n sx.dom.cond ε φ L M := by
    refine (cheb1_sub_le hu _ _ _).trans ?_
    have := sum_le_sum hco
    simpa using this
  have hsum : ∑ i ∈ range (n + 1), |s'.m_ai.getD i 0| ≤ (n + 1) * (2 * M + coeffErr n sx.dom.cond ε φ L M) := by
    refine sum_range_le_const fun i hi => ?_
    have e1 := hco i (mem_range.2 (by omega))
    have e2 := abs_next_le hX (n := n) hF.bound i
    have := abs_add_le (s'.m_ai.getD i 0 - CS1.next G n sx.dom i 0) (CS1.next G n sx.dom i 0)
    rw [sub_add_cancel] at this
    linarith
  have hv := v2.trans (mul_le_mul_of_nonneg_left hsum hE)
  rw [← cheb1_next]
  have := abs_add_le (v - cheb1 n (fun i => s'.m_ai.getD i 0) (sx.dom.unit y))
    (cheb1 n (fun i => s'.m_ai.getD i 0) (sx.dom.unit y) - cheb1 n (fun i => CS1.next G n sx.dom i 0) (sx.dom.unit y))
  rw [sub_add_sub_cancel] at this
  unfold seriesErr
  nlinarith

/-- C135, one variable: the coefficients computed in double and the value computed in double from them differ by at most `seriesErr` from what the same
two calls would return in exact arithmetic, for the exact function. -/
theorem C135_error_1d (hr : ToNearest rnd) (hc : CosClose cosR) (B : Build) {F G : ℝ → ℝ} {n : Nat} {s s₀ : CS1 ℝ} {X : Domain ℝ} (hs : Fresh1 F n s X)
    (hs₀ : Fresh1 G n s₀ X) (hX : X.Usual) (hn : X.cond * ((n : ℝ) + 1) ^ 2 ≤ 2 ^ 40) {ε φ L M : ℝ} (hT : PolyClose ε n TR) (hε : ε ≤ 1)
    (hF : Computes1 F G X φ L M) :
    ∃ s' s₀', s.computeAiR rnd cosR TR B = .ok s' ∧ s₀.computeAi B = .ok s₀' ∧ ∀ x, X.Mem x → ∃ v v₀, s'.evaluateR rnd B x = .ok v ∧
      s₀'.evaluate B x = .ok v₀ ∧ |v - v₀| ≤ seriesErr n X.cond ε φ L M := by
  obtain ⟨s', h1, h2⟩ := seriesR_close (TR := TR) hr hc B hs hX hn hT hε hF
  obtain ⟨sx, rfl, h⟩ := hs₀.holds
  obtain ⟨s₀', h3, h4⟩ := CS1.computeAi_ok B h
  refine ⟨s', s₀', h1, h3, fun x hx => ?_⟩
  obtain ⟨v, h5, h6⟩ := h2 x hx
  refine ⟨v, _, h5, CS1.evaluate_ok B h4 (Domain.mem_unit hX hx).1, ?_⟩
  rw [cheb1_next]
  exact h6

/-- C135: for a function with a derivative of order `n + 1` at most `D` in magnitude in the mapped variable, the error of the value computed in double. -/
theorem C135_accuracy_1d (hr : ToNearest rnd) (hc : CosClose cosR) (B : Build) {F G : ℝ → ℝ} {n : Nat} {s : CS1 ℝ} {X : Domain ℝ} (hs : Fresh1 F n s X)
    (hX : X.Usual) (hn : X.cond * ((n : ℝ) + 1) ^ 2 ≤ 2 ^ 40) {ε φ L M D : ℝ} (hT : PolyClose ε n TR) (hε : ε ≤ 1) (hF : Computes1 F G X φ L M)
    (hG : DerivBoundOn (n + 1) G X D) :
    ∃ s', s.computeAiR rnd cosR TR B = .ok s' ∧ ∀ x, X.Mem x → ∃ v, s'.evaluateR rnd B x = .ok v ∧
      |v - G x| ≤ D / (2 ^ n * (n + 1).factorial) + seriesErr n X.cond ε φ L M := by
  obtain ⟨s', h1, h2⟩ := seriesR_close (TR := TR) hr hc B hs hX hn hT hε hF
  refine ⟨s', h1, fun x hx => ?_⟩
  obtain ⟨v, h5, h6⟩ := h2 x hx
  refine ⟨v, h5, ?_⟩
  have h7 := domain_interp_error hX hG hx
  have := abs_add_le (v - chebInterp n (fun r => G (X.node n r)) (X.unit x)) (chebInterp n (fun r => G (X.node n r)) (X.unit x) - G x)
  rw [sub_add_sub_cancel] at this
  linarith

theorem roundNearest_close {y : ℝ} (hy : |y| ≤ 1) : |roundNearest y - y| ≤ 1 / 2 ^ 53 := by
  have := toNearest_err roundNearest_toNearest y
  rw [abs_sub_comm]
  refine this.trans ?_
  gcongr

theorem cosClose_round : CosClose (fun t => roundNearest (Real.cos t)) := fun t =>
  (roundNearest_close (Real.abs_cos_le_one t)).trans (by norm_num)

theorem polyClose_round (n : Nat) : PolyClose (1 / 2 ^ 53) n (fun i t => roundNearest ((Chebyshev.T ℝ i).eval t)) := fun i _ _ ht =>
  roundNearest_close (Chebyshev.abs_eval_T_real_le_one i ht)

theorem Spec.Fresh1.other {F : ℝ → ℝ} {n : Nat} {s : CS1 ℝ} {X : Domain ℝ} (h : Fresh1 F n s X) (G : ℝ → ℝ) : ∃ s₀, Fresh1 G n s₀ X := by
  cases h with
  | closed a b => exact ⟨_, .closed a b⟩
  | opened a => exact ⟨_, .opened a⟩

/-- C135: for a function with a Chebyshev expansion of coefficients `a`, the error of the value computed in double. -/
theorem C135_spectral_1d (hr : ToNearest rnd) (hc : CosClose cosR) (B : Build) {F G : ℝ → ℝ} {n : Nat} {s : CS1 ℝ} {X : Domain ℝ} (hs : Fresh1 F n s X)
    (hX : X.Usual) (hn : X.cond * ((n : ℝ) + 1) ^ 2 ≤ 2 ^ 40) {ε φ L M : ℝ} (hT : PolyClose ε n TR) (hε : ε ≤ 1) (hF : Computes1 F G X φ L M)
    {a : ℕ → ℝ} (hG : Expansion1 a G X) :
    ∃ s', s.computeAiR rnd cosR TR B = .ok s' ∧ ∀ x, X.Mem x → ∃ v, s'.evaluateR rnd B x = .ok v ∧
      |v - G x| ≤ (2 * ∑' k, if k ≤ n then 0 else |a k|) + seriesErr n X.cond ε φ L M := by
  obtain ⟨s₀, hs₀⟩ := hs.other G
  obtain ⟨s', s₀', h1, h2, h3⟩ := C135_error_1d (TR := TR) hr hc B hs hs₀ hX hn hT hε hF
  obtain ⟨s₁, h4, h5⟩ := C134_error_1d B hs₀ hX hG
  rw [h2] at h4
  injection h4 with h4
  refine ⟨s', h1, fun x hx => ?_⟩
  obtain ⟨v, v₀, h6, h7, h8⟩ := h3 x hx
  obtain ⟨v₁, h9, h10⟩ := h5 x hx
  rw [← h4, h7] at h9
  injection h9 with h9
  refine ⟨v, h6, ?_⟩
  rw [← h9] at h10
  have := abs_add_le (v - v₀) (v₀ - G x)
  rw [sub_add_sub_cancel] at this
  linarith

theorem sin_computes : Computes1 (fun x => roundNearest (Real.sin x)) Real.sin (.segment 0 2) (1 / 2 ^ 53) 1 1 where
  rate := zero_le_one
  close x _ := roundNearest_close (Real.abs_sin_le_one x)
  lipschitz x y _ _ := by
    have := Real.abs_sin_sub_sin_le x y
    show _ ≤ 1 * |(2 * x - 0 - 2) / (2 - 0) - (2 * y - 0 - 2) / (2 - 0)|
    rw [one_mul, show (2 * x - 0 - 2) / (2 - 0) - (2 * y - 0 - 2) / (2 - 0) = x - y by ring]
    exact this
  bound x _ := Real.abs_sin_le_one x

theorem sin_derivs (k : Nat) : DerivBoundOn k Real.sin (.segment 0 2) 1 := by
  refine ⟨fun u => Real.sin (u + 1), fun x _ => ?_, fun j u => Real.sin (u + 1 + j * (Real.pi / 2)), fun u _ => by simp, fun j _ u _ => ?_,
    fun u _ => Real.abs_sin_le_one _⟩
  · show _ = Real.sin ((2 * x - 0 - 2) / (2 - 0) + 1)
    congr 1
    ring
  · have h := (((hasDerivAt_id u).add_const 1).add_const (j * (Real.pi / 2))).sin
    have e : Real.sin (u + 1 + ((j + 1 : Nat) : ℝ) * (Real.pi / 2)) = Real.cos (u + 1 + j * (Real.pi / 2)) * 1 := by
      rw [mul_one, ← Real.sin_add_pi_div_two]
      congr 1
      push_cast
      ring
    show HasDerivWithinAt _ (Real.sin (u + 1 + ((j + 1 : Nat) : ℝ) * (Real.pi / 2))) _ u
    rw [e]
    exact h.hasDerivWithinAt

/-- The sine on `[0, 2]` at order 12, with a correctly rounded sine, cosine and polynomials: the value returned is right to `10^(-10)`. -/
example (B : Build) : ∃ s', (CS1.closed (fun x => roundNearest (Real.sin x)) 0 2 12).computeAiR roundNearest (fun t => roundNearest (Real.cos t))
      (fun i t => roundNearest ((Chebyshev.T ℝ i).eval t)) B = .ok s' ∧ ∀ x, 0 ≤ x → x ≤ 2 → ∃ v, s'.evaluateR roundNearest B x = .ok v ∧
      |v - Real.sin x| ≤ 1 / 10 ^ 10 := by
  have hκ : (Domain.segment (0 : ℝ) 2).cond = 4 := by
    norm_num [Domain.cond]
  obtain ⟨s', h1, h2⟩ := C135_accuracy_1d (n := 12) roundNearest_toNearest cosClose_round B (Fresh1.closed 0 2) (by norm_num [Domain.Usual])
    (by rw [hκ]; norm_num) (polyClose_round 12) (by norm_num) sin_computes (sin_derivs 13)
  refine ⟨s', h1, fun x h3 h4 => ?_⟩
  obtain ⟨v, h5, h6⟩ := h2 x ⟨h3, h4⟩
  refine ⟨v, h5, h6.trans ?_⟩
  rw [hκ]
  norm_num [seriesErr, coeffErr, chebErr, Nat.factorial]

end MU
