import Verif.Lemmas.RoundedExpInt

/-!
# Rounding errors of continued fractions

The computed continued fraction is `P / Q` with `P`, `Q` given by a perturbed recurrence. The difference `P q - Q p` from the exact pair `p / q` obeys a
recurrence in which the errors of a level are multiplied by the coefficients `b` above it only, so it is bounded by a polynomial in `x` that is
compared with `q^2` by the check of a polynomial inequality.
-/

set_option linter.unusedSectionVars false

namespace MU.ExpInt
open Spec PolyCheck

variable {rnd : ℝ → ℝ}

/-- Sizes of the numerator and of the denominator of a continued fraction: `cfPair` with absolute values. -/
def cfSize (c : ℤ) : List ℤ → List ℤ → List ℤ × List ℤ
  | a :: as, b :: bs => let r := cfSize c as bs; (pscale |b| r.2, padd (pmul [|a|, c] r.2) (pscale c r.1))
  | _, _ => ([0], [1])

/-- `T` times the errors of first order; `ws` are the weights of `2 q q' ≤ (w.1 q'^2 + w.2 q^2) / T`. -/
def cfErr (c T : ℤ) : List ℤ → List ℤ → List (ℤ × ℤ) → List ℤ
  | a :: as, b :: bs, w :: ws =>
    let q := (cfPair c (a :: as) (b :: bs)).2
    let q' := (cfPair c as bs).2
    pscale |b| (padd (pscale c (cfErr c T as bs ws)) (padd (padd (pscale (2 * w.1) (pmul q' q')) (pscale (2 * w.2) (pmul q q)))
      (pmul [2 * T * |a|, 2 * T * c] (pmul q' q'))))
  | _, _, _ => [0]

/-- The errors of second order, up to a constant. -/
def cfCrude (c : ℤ) : List ℤ → List ℤ → List ℤ
  | a :: as, b :: bs => pscale |b| (padd (pscale c (cfCrude c as bs)) (pmul (cfSize c as bs).2 (cfSize c (a :: as) (b :: bs)).2))
  | _, _ => [0]

/-- The computed continued fraction by recursion. -/
noncomputable def cfExtR (rnd : ℝ → ℝ) (x : ℝ) : List ℝ → List ℝ → Ext
  | a :: as, b :: bs => Ext.divR rnd b (Ext.addR rnd (rnd (a + x)) (cfExtR rnd x as bs))
  | _, _ => .fin 0

theorem fractionLoopR_eq (as bs pa : List ℝ) (x : ℝ) (a0 : ℝ) (pb : List ℝ) (h : as.length = bs.length) (hp : pa.length = pb.length) (n : Nat)
    (hn : n = pb.length + bs.length) : fractionLoopR rnd (a0 :: (pa ++ as)) (pb ++ bs) x n (.fin 0) =
      fractionLoopR rnd (a0 :: (pa ++ as)) (pb ++ bs) x pb.length (cfExtR rnd x as bs) := by
  induction as generalizing bs pa pb with
  | nil =>
    have : bs = [] := List.length_eq_zero_iff.1 h.symm
    subst this
    rw [hn]
    rfl
  | cons a as ih =>
    obtain ⟨b, bs, rfl⟩ : ∃ b bs', bs = b :: bs' := by
      cases bs with
      | nil => simp at h
      | cons b bs => exact ⟨b, bs, rfl⟩
    have h' : as.length = bs.length := by simpa using h
    have := ih bs (pa ++ [a]) (pb ++ [b]) h' (by simp [hp]) (by simp at hn ⊢; omega)
    rw [List.append_assoc, List.append_assoc] at this
    simp only [List.singleton_append] at this
    rw [this, List.length_append, List.length_singleton, fractionLoopR, cfExtR]
    have e1 : vAt (pb ++ b :: bs) pb.length = .ok b := by simp [vAt]
    have e2 : vAt (a0 :: (pa ++ a :: as)) (pb.length + 1) = .ok a := by simp [vAt, ← hp]
    rw [e1, e2]
    rfl

theorem Rep_stepR (hr : ToNearest rnd) {e : Ext} {p q b c s : ℝ} (hb : b ≠ 0) (hc : c ≠ 0) (h : Rep e p q) :
    ∃ θ, |θ - 1| ≤ gam 4 ∧ Rep (Ext.divR rnd (rnd (b / c)) (Ext.addR rnd s e)) (b * θ * q) (c * s * q + c * p) := by
  obtain ⟨h0, h1, h2⟩ := h
  by_cases hq : q = 0
  · have hp : p ≠ 0 := h0.resolve_right (by simpa using hq)
    refine ⟨1, by simp [gam_nonneg], ?_⟩
    rw [h2 hq, hq]
    refine ⟨Or.inr (by simp [hc, hp]), fun _ => by simp [Ext.addR, Ext.divR], fun h => absurd h (by simp [hc, hp])⟩
  · rw [h1 hq]
    have e1 : s + p / q = (c * s * q + c * p) / (c * q) := by field_simp
    have hbc : b / c ≠ 0 := div_ne_zero hb hc
    have hbc' := toNearest_ne_zero hr hbc
    by_cases hz : c * s * q + c * p = 0
    · refine ⟨1, by simp [gam_nonneg], Or.inl (by simp [hb, hq]), fun h => absurd hz h, fun _ => ?_⟩
      rw [Ext.addR, e1, hz, zero_div, toNearest_double hr double_zero, Ext.divR, if_pos rfl, if_neg hbc']
    · have hs : s + p / q ≠ 0 := by rw [e1]; exact div_ne_zero hz (mul_ne_zero hc hq)
      have hs' := toNearest_ne_zero hr hs
      have hn : Near 4 |b / c / (s + p / q)| (b / c / (s + p / q)) (rnd (rnd (b / c) / rnd (s + p / q))) := by
        have := ((Near.exact (b / c)).round hr |>.mul (Near.inv_round hr (d := s + p / q))).round hr
        rwa [← abs_mul, ← div_eq_mul_inv, ← div_eq_mul_inv] at this
      have hθ : b / c / (s + p / q) ≠ 0 := div_ne_zero hbc hs
      refine ⟨rnd (rnd (b / c) / rnd (s + p / q)) / (b / c / (s + p / q)), ?_, ?_⟩
      · rw [div_sub_one hθ, abs_div, div_le_iff₀ (abs_pos.2 hθ)]
        exact hn.err
      · have h0 := toNearest_ne_zero hr (div_ne_zero hbc' hs')
        refine ⟨Or.inr hz, fun _ => ?_, fun h => absurd h hz⟩
        rw [Ext.addR, Ext.divR, if_neg hs']
        congr 1
        generalize rnd (rnd (b / c) / rnd (s + p / q)) = r
        rw [e1]
        have hz' : s * q + p ≠ 0 := fun h => hz (by linear_combination c * h)
        field_simp

/-- One level. -/
theorem level_err {b c T a S Sh θ q' p' Q' P' Z' Z E C tn ts u g4 g2 g18 x : ℝ} (hc : 0 ≤ c) (hT : 0 < T) (hu : 0 ≤ u) (hw : T ^ 2 ≤ tn * ts)
    (htn : 0 ≤ tn) (hts : 0 ≤ ts) (h4 : g4 ≤ 4.04 * u) (h2 : g2 ≤ 2.02 * u) (h18 : g18 ≤ 19 * u) (g40 : 0 ≤ g4) (g20 : 0 ≤ g2) (g180 : 0 ≤ g18)
    (ha : 0 ≤ a) (hx : 0 ≤ x)
    (hθ : |θ - 1| ≤ g4) (hS : |Sh - S| ≤ g2 * (a + c * x)) (hQ : |Q' - q'| ≤ g18 * Z') (hz' : |q'| ≤ Z') (hz : |S * q' + c * p'| ≤ Z)
    (hZ : (a + c * x) * Z' ≤ Z) (hD : |P' * q' - Q' * p'| ≤ 1.01 * u / T * E + 200 * u ^ 2 * C) :
    |b * θ * Q' * (S * q' + c * p') - (Sh * Q' + c * P') * (b * q')| ≤
      1.01 * u / T * (|b| * (c * E + (2 * tn * (q' * q') + 2 * ts * ((S * q' + c * p') * (S * q' + c * p')) + (2 * T * a + 2 * T * c * x) * (q' * q')))) +
        200 * u ^ 2 * (|b| * (c * C + Z' * Z)) := by
  have key : b * θ * Q' * (S * q' + c * p') - (Sh * Q' + c * P') * (b * q') =
      b * ((θ - 1) * Q' * (S * q' + c * p') - (Sh - S) * Q' * q' - c * (P' * q' - Q' * p')) := by ring
  set q := S * q' + c * p'
  have hQa : |Q'| ≤ |q'| + g18 * Z' := by
    have := abs_sub_abs_le_abs_sub Q' q'
    linarith
  have hax : 0 ≤ a + c * x := by positivity
  have hZ0 : 0 ≤ Z' := (abs_nonneg _).trans hz'
  have hq0 := abs_nonneg q
  have hq'0 := abs_nonneg q'
  have t1 : |(θ - 1) * Q' * q| ≤ g4 * (|q'| + g18 * Z') * |q| := by
    rw [abs_mul, abs_mul]
    gcongr
  have t2 : |(Sh - S) * Q' * q'| ≤ g2 * (a + c * x) * (|q'| + g18 * Z') * |q'| := by
    rw [abs_mul, abs_mul]
    gcongr
  have t3 : |c * (P' * q' - Q' * p')| ≤ c * (1.01 * u / T * E + 200 * u ^ 2 * C) := by
    rw [abs_mul, abs_of_nonneg hc]
    gcongr
  -- products
  have am : 2 * (|q'| * |q|) ≤ (tn * (q' * q') + ts * (q * q)) / T := by
    rw [le_div_iff₀ hT, ← abs_mul_abs_self q', ← abs_mul_abs_self q]
    have s1 : T ≤ Real.sqrt tn * Real.sqrt ts := by
      rw [← Real.sqrt_mul htn]
      exact Real.le_sqrt_of_sq_le hw
    have s2 := Real.mul_self_sqrt htn
    have s3 := Real.mul_self_sqrt hts
    have s4 := sq_nonneg (Real.sqrt tn * |q'| - Real.sqrt ts * |q|)
    have s5 : |q'| * |q| * T ≤ |q'| * |q| * (Real.sqrt tn * Real.sqrt ts) := by gcongr
    have s6 : tn * (|q'| * |q'|) + ts * (|q| * |q|) - 2 * (|q'| * |q| * (Real.sqrt tn * Real.sqrt ts)) = (Real.sqrt tn * |q'| - Real.sqrt ts * |q|) ^ 2 := by
      rw [← s2, ← s3]
      simp only [Real.sqrt_mul_self (Real.sqrt_nonneg _)]
      ring
    linarith
  have b1 : g4 * (|q'| * |q|) ≤ 1.01 * u / T * (2 * tn * (q' * q') + 2 * ts * (q * q)) := by
    calc g4 * (|q'| * |q|) ≤ 4.04 * u * (|q'| * |q|) := by gcongr
      _ = 2.02 * u * (2 * (|q'| * |q|)) := by ring
      _ ≤ 2.02 * u * ((tn * (q' * q') + ts * (q * q)) / T) := by gcongr
      _ = _ := by field_simp; ring
  have b2 : g2 * (a + c * x) * |q'| * |q'| ≤ 1.01 * u / T * ((2 * T * a + 2 * T * c * x) * (q' * q')) := by
    calc g2 * (a + c * x) * |q'| * |q'| ≤ 2.02 * u * (a + c * x) * |q'| * |q'| := by gcongr
      _ = 2.02 * u * (a + c * x) * (q' * q') := by rw [mul_assoc _ |q'|, abs_mul_abs_self]
      _ = _ := by field_simp; ring
  have b3 : g4 * (g18 * Z') * |q| ≤ 77 * u ^ 2 * (Z' * Z) := by
    calc g4 * (g18 * Z') * |q| ≤ 4.04 * u * (19 * u * Z') * Z := by gcongr
      _ = 76.76 * u ^ 2 * (Z' * Z) := by ring
      _ ≤ _ := by
        have : 0 ≤ u ^ 2 * (Z' * Z) := by have := hq0.trans hz; positivity
        linarith
  have b4 : g2 * (a + c * x) * (g18 * Z') * |q'| ≤ 39 * u ^ 2 * (Z' * Z) := by
    calc g2 * (a + c * x) * (g18 * Z') * |q'| ≤ 2.02 * u * (a + c * x) * (19 * u * Z') * Z' := by gcongr
      _ = 38.38 * u ^ 2 * Z' * ((a + c * x) * Z') := by ring
      _ ≤ 38.38 * u ^ 2 * Z' * Z := by gcongr
      _ ≤ _ := by
        have : 0 ≤ u ^ 2 * (Z' * Z) := by have := hq0.trans hz; positivity
        linarith
  have b5 : 0 ≤ u ^ 2 * (Z' * Z) := by have := hq0.trans hz; positivity
  rw [key, abs_mul]
  have tri : |(θ - 1) * Q' * q - (Sh - S) * Q' * q' - c * (P' * q' - Q' * p')| ≤ |(θ - 1) * Q' * q| + |(Sh - S) * Q' * q'| + |c * (P' * q' - Q' * p')| :=
    (abs_sub _ _).trans (add_le_add (abs_sub _ _) le_rfl)
  have fin : |(θ - 1) * Q' * q - (Sh - S) * Q' * q' - c * (P' * q' - Q' * p')| ≤
      1.01 * u / T * (c * E + (2 * tn * (q' * q') + 2 * ts * (q * q) + (2 * T * a + 2 * T * c * x) * (q' * q'))) + 200 * u ^ 2 * (c * C + Z' * Z) := by
    refine tri.trans ?_
    have e1 : g4 * (|q'| + g18 * Z') * |q| = g4 * (|q'| * |q|) + g4 * (g18 * Z') * |q| := by ring
    have e2 : g2 * (a + c * x) * (|q'| + g18 * Z') * |q'| = g2 * (a + c * x) * |q'| * |q'| + g2 * (a + c * x) * (g18 * Z') * |q'| := by ring
    have e3 : 1.01 * u / T * (c * E + (2 * tn * (q' * q') + 2 * ts * (q * q) + (2 * T * a + 2 * T * c * x) * (q' * q'))) + 200 * u ^ 2 * (c * C + Z' * Z) =
      c * (1.01 * u / T * E + 200 * u ^ 2 * C) + 1.01 * u / T * (2 * tn * (q' * q') + 2 * ts * (q * q)) +
        1.01 * u / T * ((2 * T * a + 2 * T * c * x) * (q' * q')) + 200 * (u ^ 2 * (Z' * Z)) := by ring
    rw [e3]
    rw [e1] at t1
    rw [e2] at t2
    linarith
  refine (mul_le_mul_of_nonneg_left fin (abs_nonneg b)).trans (le_of_eq ?_)
  ring

theorem gam_bounds : gam 4 ≤ 4.04 * uround ∧ gam 2 ≤ 2.02 * uround ∧ gam 18 ≤ 19 * uround := by
  refine ⟨?_, ?_, ?_⟩ <;> · unfold gam uround; norm_num

/-- The computed continued fraction of up to nine levels. -/
theorem cf_round (hr : ToNearest rnd) {c T : ℤ} (hc : 0 < c) (hT : 0 < T) {x : ℝ} (hx : 0 ≤ x) (as bs : List ℤ) (ws : List (ℤ × ℤ))
    (h : as.length = bs.length) (h' : ws.length = bs.length) (hn : bs.length ≤ 9) (hb : ∀ b ∈ bs, b ≠ 0)
    (hw : ∀ w ∈ ws, 0 ≤ w.1 ∧ 0 ≤ w.2 ∧ T ^ 2 ≤ w.1 * w.2) :
    ∃ P Q, Rep (cfExtR rnd x ((as.map fun (a : ℤ) => (a : ℝ) / c).map rnd) ((bs.map fun (a : ℤ) => (a : ℝ) / c).map rnd)) P Q ∧
      Near (2 * bs.length + 2) (pev (cfSize c as bs).1 x) (pev (cfPair c as bs).1 x) P ∧
      Near (2 * bs.length) (pev (cfSize c as bs).2 x) (pev (cfPair c as bs).2 x) Q ∧
      |P * pev (cfPair c as bs).2 x - Q * pev (cfPair c as bs).1 x| ≤
        1.01 * uround / T * pev (cfErr c T as bs ws) x + 200 * uround ^ 2 * pev (cfCrude c as bs) x := by
  induction as generalizing bs ws with
  | nil =>
    have : bs = [] := List.length_eq_zero_iff.1 h.symm
    subst this
    refine ⟨0, 1, ?_, ?_, ?_, ?_⟩
    · simpa [cfExtR] using Rep_zero
    · refine ⟨?_, ?_⟩ <;> simp [cfPair, cfSize, pev]
    · refine ⟨?_, ?_⟩ <;> simp [cfPair, cfSize, pev, gam_nonneg]
    · simp [cfPair, cfErr, cfCrude, pev]
  | cons a as ih =>
    obtain ⟨b, bs, rfl⟩ : ∃ b bs', bs = b :: bs' := by
      cases bs with
      | nil => simp at h
      | cons b bs => exact ⟨b, bs, rfl⟩
    obtain ⟨w, ws, rfl⟩ : ∃ w ws', ws = w :: ws' := by
      cases ws with
      | nil => simp at h'
      | cons b bs => exact ⟨b, bs, rfl⟩
    simp only [List.length_cons] at h h' hn
    obtain ⟨P', Q', hrep, hP, hQ, hD⟩ := ih bs ws (by omega) (by omega) (by omega) (fun b hb' => hb b (by simp [hb'])) (fun w hw' => hw w (by simp [hw']))
    have hc0 : (0 : ℝ) < c := by exact_mod_cast hc
    have hT0 : (0 : ℝ) < T := by exact_mod_cast hT
    have hb0 : (b : ℝ) ≠ 0 := by exact_mod_cast hb b (by simp)
    obtain ⟨w1, w2, w3⟩ := hw w (by simp)
    set ŝ := rnd (rnd ((a : ℝ) / c) + x) with hs
    obtain ⟨θ, hθ, hrep'⟩ := Rep_stepR hr (s := ŝ) hb0 hc0.ne' hrep
    have hS : Near 2 (|(a : ℝ)| + c * x) (a + c * x) (c * ŝ) := by
      have h1 := (((Near.exact ((a : ℝ) / c)).round hr).add ((Near.exact x).upto (Nat.zero_le 1))).round hr
      have h2 := (Near.exact (c : ℝ)).mul h1
      rw [abs_div, abs_of_pos hc0, abs_of_nonneg hx, Nat.zero_add] at h2
      convert h2 using 1 <;> field_simp
    have e : ∀ a : ℤ, pev [a, c] x = a + c * x := fun a => by simp [pev]; ring
    have hθn : Near 4 1 1 θ := ⟨by simpa using hθ, by simp⟩
    have hbn : Near (2 * (b :: bs).length + 2) (pev (cfSize c (a :: as) (b :: bs)).1 x) (pev (cfPair c (a :: as) (b :: bs)).1 x) (b * θ * Q') := by
      have := ((Near.exact (b : ℝ)).mul hθn).mul hQ
      simp only [cfSize, cfPair, pev_pscale]
      rw [mul_one, mul_one] at this
      push_cast
      refine this.upto ?_
      simp only [List.length_cons]
      omega
    have hQn : Near (2 * (b :: bs).length) (pev (cfSize c (a :: as) (b :: bs)).2 x) (pev (cfPair c (a :: as) (b :: bs)).2 x) (c * ŝ * Q' + c * P') := by
      have h1 := hS.mul hQ
      have h2 := (Near.exact (c : ℝ)).mul hP
      rw [abs_of_pos hc0] at h2
      simp only [cfSize, cfPair, pev_pscale, pev_padd, pev_pmul, e]
      push_cast
      have hl : 2 * (b :: bs).length = 2 + 2 * bs.length := by simp only [List.length_cons]; omega
      rw [hl]
      exact h1.add (h2.upto (by omega))
    refine ⟨b * θ * Q', c * ŝ * Q' + c * P', ?_, hbn, hQn, ?_⟩
    · simpa only [List.map_cons, cfExtR] using hrep'
    · have hz := hQn.size
      simp only [cfSize, cfPair, pev_pscale, pev_padd, pev_pmul, e] at hz
      push_cast at hz
      obtain ⟨g1, g2, g3⟩ := gam_bounds
      have lev := level_err (b := (b : ℝ)) (c := c) (T := T) (a := |(a : ℝ)|) (S := a + c * x) (Sh := c * ŝ) (θ := θ) (q' := pev (cfPair c as bs).2 x)
        (p' := pev (cfPair c as bs).1 x) (Q' := Q') (P' := P') (Z' := pev (cfSize c as bs).2 x) (tn := w.1) (ts := w.2) (u := uround) (x := x)
        hc0.le hT0 uround_nonneg (by exact_mod_cast w3) (by exact_mod_cast w1) (by exact_mod_cast w2) g1 g2 g3 (gam_nonneg _) (gam_nonneg _) (gam_nonneg _)
        (abs_nonneg _) hx hθ hS.err (hQ.err.trans (mul_le_mul_of_nonneg_right (gam_mono (by omega)) hQ.nonneg)) hQ.size hz
        (by have := mul_nonneg hc0.le hP.nonneg; linarith) hD
      simp only [cfErr, cfCrude, cfPair, cfSize, pev_pscale, pev_padd, pev_pmul, e]
      have e' : pev [2 * T * |a|, 2 * T * c] x = 2 * T * |(a : ℝ)| + 2 * T * c * x := by simp [pev]; ring
      rw [e']
      push_cast
      exact lev

theorem quotient_err {p q P Q E C Z ke kc kz u : ℝ} (hu : 0 < u) (hu' : u ≤ 1 / 2 ^ 53) (hq : q ≠ 0) (hQ : |Q - q| ≤ 19 * u * Z) (hZ : Z ≤ kz * |q|)
    (hD : |P * q - Q * p| ≤ 1.01 * u * E + 200 * u ^ 2 * C) (hE : E ≤ ke * (q * q)) (hC : C ≤ kc * (q * q)) (h1 : 0 ≤ ke) (h2 : kc ≤ 3e10) (h3 : kz ≤ 1e6) :
    Q ≠ 0 ∧ |P / Q - p / q| ≤ u * (1.03 * ke + 0.01) := by
  have hq0 : 0 < |q| := abs_pos.2 hq
  have hQ1 : |Q - q| ≤ 0.001 * |q| := by
    calc |Q - q| ≤ 19 * u * Z := hQ
      _ ≤ 19 * u * (1e6 * |q|) := by
        gcongr
        exact hZ.trans (by gcongr)
      _ ≤ 19 * (1 / 2 ^ 53) * (1e6 * |q|) := by gcongr
      _ ≤ 0.001 * |q| := by
        norm_num
        linarith
  have hQ2 : 0.999 * |q| ≤ |Q| := by
    have := abs_sub_abs_le_abs_sub q Q
    rw [abs_sub_comm] at this
    linarith
  have hQ0 : 0 < |Q| := lt_of_lt_of_le (by positivity) hQ2
  have hQn : Q ≠ 0 := abs_pos.1 hQ0
  refine ⟨hQn, ?_⟩
  rw [div_sub_div _ _ hQn hq, abs_div, div_le_iff₀ (abs_pos.2 (mul_ne_zero hQn hq)), abs_mul]
  have e : q * q = |q| * |q| := (abs_mul_abs_self q).symm
  calc |P * q - Q * p| ≤ 1.01 * u * (ke * (q * q)) + 200 * u ^ 2 * (3e10 * (q * q)) := by
        refine hD.trans ?_
        have : 0 ≤ q * q := mul_self_nonneg q
        gcongr
        exact hC.trans (by gcongr)
    _ = u * (1.01 * ke + 6e12 * u) * (|q| * |q|) := by rw [e]; ring
    _ ≤ u * (1.01 * ke + 6e12 * (1 / 2 ^ 53)) * (|q| * |q|) := by gcongr
    _ ≤ u * (0.999 * (1.03 * ke + 0.01)) * (|q| * |q|) := by
        gcongr
        norm_num
        linarith
    _ = u * (1.03 * ke + 0.01) * (0.999 * |q| * |q|) := by ring
    _ ≤ u * (1.03 * ke + 0.01) * (|Q| * |q|) := by gcongr

/-- The computed continued fraction, under polynomial bounds on its errors. -/
theorem continuedFractionR_near (hr : ToNearest rnd) (B : Build) {al be : List ℝ} {A Bt : List ℤ} {ws : List (ℤ × ℤ)} {c T : ℤ} {x ke kc kz : ℝ} (hx : 0 ≤ x)
    (hA : al = A.map fun (a : ℤ) => (a : ℝ) / c) (hB : be = Bt.map fun (a : ℤ) => (a : ℝ) / c) (hc : 0 < c) (hT : 0 < T)
    (h : A.length = 10 ∧ Bt.length = 9 ∧ ∀ b ∈ Bt, b ≠ 0) (hw : ws.length = 9 ∧ ∀ w ∈ ws, 0 ≤ w.1 ∧ 0 ≤ w.2 ∧ T ^ 2 ≤ w.1 * w.2)
    (hq : pev (cfPair c A.tail Bt).2 x ≠ 0)
    (hE : |pev (cfErr c T A.tail Bt ws) x| ≤ ke * pev (pscale T (pmul (cfPair c A.tail Bt).2 (cfPair c A.tail Bt).2)) x)
    (hC : |pev (cfCrude c A.tail Bt) x| ≤ kc * pev (pmul (cfPair c A.tail Bt).2 (cfPair c A.tail Bt).2) x)
    (hZ : |pev (cfSize c A.tail Bt).2 x| ≤ kz * |pev (cfPair c A.tail Bt).2 x|) (h1 : 0 ≤ ke) (h1' : ke ≤ 1000) (h2 : kc ≤ 3e10) (h3 : kz ≤ 1e6)
    (ha0 : |(A.headD 0 : ℝ) / c| ≤ 2) (hF : |rat (cfNum c A Bt) (cfDen c A Bt) x| ≤ 2) :
    ∃ F, continuedFractionR rnd B al be x = .ok F ∧
      |F - rat (cfNum c A Bt) (cfDen c A Bt) x| ≤ uround * (|(A.headD 0 : ℝ) / c| + |rat (cfNum c A Bt) (cfDen c A Bt) x| + 1.03 * ke + 0.02) := by
  obtain ⟨l1, l2, hb⟩ := h
  obtain ⟨l3, hw⟩ := hw
  obtain ⟨a0, as, rfl⟩ : ∃ a0 as, A = a0 :: as := by
    cases A with
    | nil => simp at l1
    | cons a as => exact ⟨a, as, rfl⟩
  have l1' : as.length = 9 := by simpa using l1
  simp only [List.tail_cons, List.headD_cons] at *
  have hc0 : (0 : ℝ) < c := by exact_mod_cast hc
  have hT0 : (0 : ℝ) < T := by exact_mod_cast hT
  obtain ⟨P, Q, hrep, -, hQ, hD⟩ := cf_round hr hc hT hx as Bt ws (by omega) (by omega) (by omega) hb hw
  rw [pev_pscale, pev_pmul] at hE
  rw [pev_pmul] at hC
  have hloop := fractionLoopR_eq (rnd := rnd) ((as.map fun (a : ℤ) => (a : ℝ) / c).map rnd) ((Bt.map fun (a : ℤ) => (a : ℝ) / c).map rnd) [] x (rnd (a0 / c)) []
    (by simp; omega) rfl 9 (by simp [l2])
  simp only [List.nil_append, List.length_nil] at hloop
  set q := pev (cfPair c as Bt).2 x
  set p := pev (cfPair c as Bt).1 x
  obtain ⟨hQ0, hquo⟩ := quotient_err (P := P) (Q := Q) (p := p) (q := q) (E := pev (cfErr c T as Bt ws) x / T) (C := pev (cfCrude c as Bt) x)
    (Z := pev (cfSize c as Bt).2 x) uround_pos le_rfl hq
    (hQ.err.trans (mul_le_mul_of_nonneg_right ((gam_mono (by omega)).trans gam_bounds.2.2) hQ.nonneg)) ((le_abs_self _).trans hZ)
    (hD.trans (le_of_eq (by ring))) (ke := ke) (by
      rw [div_le_iff₀ hT0]
      exact (le_abs_self _).trans (hE.trans (le_of_eq (by ring)))) ((le_abs_self _).trans hC) h1 h2 h3
  have hrat : rat (cfNum c (a0 :: as) Bt) (cfDen c (a0 :: as) Bt) x = a0 / c + p / q := by
    rw [rat, cfNum, cfDen, pev_padd, pev_pscale, pev_pscale, pev_pscale, List.tail_cons, List.headD_cons]
    show (a0 * q + c * p) / (c * q) = _
    field_simp
  rw [hrat] at hF ⊢
  refine ⟨rnd (rnd (a0 / c) + P / Q), ?_, ?_⟩
  · unfold continuedFractionR
    rw [hA, hB]
    simp only [List.map_cons]
    rw [cassert_true _ _ (by simp; omega), Res.ok_bind, hloop, fractionLoopR, Res.ok_bind, hrep.2.1 hQ0]
    simp only [vAt, List.getElem?_cons_zero, Res.ok_bind, Ext.addR, Ext.get]
  · have e : (uround : ℝ) = 1 / 2 ^ 53 := rfl
    have er : ∀ y, |rnd y - y| ≤ |y| * uround := fun y => by
      have := toNearest_err hr y
      rwa [div_eq_mul_one_div, ← e, abs_sub_comm] at this
    have r1 := er (a0 / c)
    have r2 := er (rnd (a0 / c) + P / Q)
    set α : ℝ := a0 / c
    set F := α + p / q with hFd
    have t1 : |rnd α + P / Q - F| ≤ |α| * uround + uround * (1.03 * ke + 0.01) := by
      rw [show rnd α + P / Q - F = (rnd α - α) + (P / Q - p / q) by rw [hFd]; ring]
      exact (abs_add_le _ _).trans (add_le_add r1 hquo)
    have t2 : |rnd α + P / Q| ≤ |F| + (|α| * uround + uround * (1.03 * ke + 0.01)) := by
      have := abs_sub_abs_le_abs_sub (rnd α + P / Q) F
      linarith
    have t3 := abs_sub_le (rnd (rnd α + P / Q)) (rnd α + P / Q) F
    have hu := uround_pos
    have t4 : |rnd α + P / Q| * uround ≤ (|F| + (2 * uround + uround * (1.03 * 1000 + 0.01))) * uround := by
      gcongr
      refine t2.trans ?_
      gcongr
    have t5 : (2 * uround + uround * (1.03 * 1000 + 0.01)) * uround ≤ 0.01 * uround := by
      gcongr
      rw [e]
      norm_num
    linarith [t4, t5]

end MU.ExpInt
