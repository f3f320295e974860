import Verif.Props.RoundedChebyshevCompute

set_option linter.unusedSectionVars false

/-!
# Spectral accuracy of the derivatives of the Chebyshev series

C136: the error of the derivatives of the computed series, for functions with a Chebyshev expansion of which the derivative converges absolutely.
-/

namespace MU.Spec

/-- The slope at `x` of the map of the domain to `[-1, 1]`. -/
noncomputable def Domain.unitSlope : Domain ℝ → ℝ → ℝ
  | .segment a b, _ => 2 / (b - a)
  | .halfLine a, x => 2 * a / x ^ 2

end MU.Spec

namespace MU
open Spec Finset Polynomial Filter

theorem dom_unitSlope (s : Seg ℝ) (x : ℝ) : s.dom.unitSlope x = s.coef x := by
  cases s
  · rfl
  · show _ / _ ^ 2 = _ / (_ * _)
    rw [sq]

theorem Domain.exists_seg (X : Domain ℝ) : ∃ s : Seg ℝ, s.dom = X := by
  cases X with
  | segment a b => exact ⟨.closed a b, rfl⟩
  | halfLine a => exact ⟨.opened a, rfl⟩

/-- `unitSlope` is the derivative of the map. -/
theorem Domain.hasDerivAt_unit {X : Domain ℝ} (hX : X.Usual) {x : ℝ} (hx : X.Mem x) : HasDerivAt X.unit (X.unitSlope x) x := by
  obtain ⟨s, rfl⟩ := Domain.exists_seg X
  rw [dom_unitSlope]
  exact Seg.hasDerivAt (Domain.mem_unit hX hx).1

theorem Domain.unitSlope_pos {X : Domain ℝ} (hX : X.Usual) {x : ℝ} (hx : X.Mem x) : 0 < X.unitSlope x := by
  cases X with
  | segment a b =>
    have hX : a < b := hX
    exact div_pos two_pos (by linarith)
  | halfLine a =>
    have hX : 0 < a := hX
    have hx : a ≤ x := hx
    have : 0 < x := by linarith
    show 0 < 2 * a / x ^ 2
    positivity

/-- The points of the domain close to one of them. -/
theorem Domain.accPt {X : Domain ℝ} (hX : X.Usual) {x : ℝ} (hx : X.Mem x) : (nhdsWithin x ({t | X.Mem t} \ {x})).NeBot := by
  have h : UniqueDiffWithinAt ℝ {t | X.Mem t} x := by
    cases X with
    | segment a b => exact uniqueDiffOn_Icc hX x hx
    | halfLine a => exact uniqueDiffOn_Ici a x hx
  exact accPt_principal_iff_nhdsWithin.1 h.accPt

theorem deriv_le_of_lip {D u : ℝ → ℝ} {S : Set ℝ} {x d c L : ℝ} (hD : HasDerivWithinAt D d S x) (hu : HasDerivWithinAt u c S x)
    (hne : (nhdsWithin x (S \ {x})).NeBot) (h : ∀ t ∈ S, |D t - D x| ≤ L * |u t - u x|) : |d| ≤ L * |c| := by
  rw [hasDerivWithinAt_iff_tendsto_slope] at hD hu
  refine le_of_tendsto_of_tendsto hD.abs (hu.abs.const_mul L) ?_
  filter_upwards [self_mem_nhdsWithin] with t ht
  rw [slope_def_field, slope_def_field, abs_div, abs_div, ← mul_div_assoc]
  exact div_le_div_of_nonneg_right (h t ht.1) (abs_nonneg _)

/-- The difference of the derivatives of two sums with the same terms but for some. -/
theorem series_deriv_close {ι : Type} {X : Domain ℝ} (hX : X.Usual) {x d : ℝ} (hx : X.Mem x) {E : ℝ → Res ℝ} {Dv : Res ℝ} (hE : IsDerivAt E Dv x)
    {S F : ℝ → ℝ} (hES : ∀ t, X.Mem t → E t = .ok (S t)) (hF : HasDerivWithinAt F d {t | X.Mem t} x) {f g : ι → ℝ → ℝ} {b : ι → ℝ} (good : ι → Prop)
    [DecidablePred good] (hb : Summable (fun k => |b k|)) (h1 : ∀ t, X.Mem t → HasSum (fun k => f k (X.unit t)) (S t))
    (h2 : ∀ t, X.Mem t → HasSum (fun k => g k (X.unit t)) (F t)) (hg : ∀ k, good k → ∀ u, f k u = g k u)
    (hf : ∀ k u u', |u| ≤ 1 → |u'| ≤ 1 → |f k u - f k u'| ≤ |b k| * |u - u'|) (hg' : ∀ k u u', |u| ≤ 1 → |u'| ≤ 1 → |g k u - g k u'| ≤ |b k| * |u - u'|) :
    ∃ v, Dv = .ok v ∧ |v - d| ≤ (2 * ∑' k, if good k then 0 else |b k|) * X.unitSlope x := by
  obtain ⟨e, v, e1, e2, e3⟩ := hE
  refine ⟨v, e2, ?_⟩
  have hS : HasDerivWithinAt S v {t | X.Mem t} x := by
    have h3 : ∀ t, X.Mem t → E t = .ok (e t) → S t = e t := fun t ht h => by
      rw [hES t ht] at h
      injection h
    refine (e3.hasDerivWithinAt (s := {t | X.Mem t})).congr_of_eventuallyEq ?_ (h3 x hx e1.self_of_nhds)
    filter_upwards [self_mem_nhdsWithin, mem_nhdsWithin_of_mem_nhds e1] with t ht ht' using h3 t ht ht'
  have hD := hS.sub hF
  have := deriv_le_of_lip hD (Domain.hasDerivAt_unit hX hx).hasDerivWithinAt (Domain.accPt hX hx) (L := 2 * ∑' k, if good k then 0 else |b k|)
    (fun t ht => ?_)
  · rwa [abs_of_pos (Domain.unitSlope_pos hX hx)] at this
  · have hu := domain_unit_le hX hx
    have hu' := domain_unit_le hX (show X.Mem t from ht)
    have h3 := hasSum_sub_le (a := fun k => |b k| * |X.unit t - X.unit x|) good (by
        refine (hb.mul_right |X.unit t - X.unit x|).congr fun k => ?_
        rw [abs_mul, abs_abs, abs_abs])
      ((h1 t ht).sub (h1 x hx)) ((h2 t ht).sub (h2 x hx)) (fun k hk => by rw [hg k hk, hg k hk]) (fun k => by
        rw [abs_mul, abs_abs, abs_abs, two_mul]
        exact (abs_sub _ _).trans (add_le_add (hf k _ _ hu' hu) (hg' k _ _ hu' hu)))
    have h4 : (∑' k, if good k then 0 else |(|b k| * |X.unit t - X.unit x|)|) = (∑' k, if good k then 0 else |b k|) * |X.unit t - X.unit x| := by
      rw [← tsum_mul_right]
      refine tsum_congr fun k => ?_
      split_ifs
      · rw [zero_mul]
      · rw [abs_mul, abs_abs, abs_abs]
    rw [h4] at h3
    have e4 : S t - F t - (S x - F x) = S t - S x - (F t - F x) := by ring
    show |S t - F t - (S x - F x)| ≤ _
    rw [e4, mul_assoc]
    exact h3

/-- Term by term differentiation. -/
theorem series_differentiable {ι : Type} {X : Domain ℝ} (hX : X.Usual) {x : ℝ} (hx : X.Mem x) {F : ℝ → ℝ} {g : ι → ℝ → ℝ} {g' b : ι → ℝ}
    (hb : Summable (fun k => |b k|)) (h2 : ∀ t, X.Mem t → HasSum (fun k => g k (X.unit t)) (F t)) (hd : ∀ k, HasDerivAt (g k) (g' k) (X.unit x))
    (hg' : ∀ k u u', |u| ≤ 1 → |u'| ≤ 1 → |g k u - g k u'| ≤ |b k| * |u - u'|) : ∃ d, HasDerivWithinAt F d {t | X.Mem t} x := by
  refine ⟨∑' k, g' k * X.unitSlope x, hasDerivWithinAt_iff_tendsto_slope.2 ?_⟩
  have hu := (Domain.hasDerivAt_unit hX hx).hasDerivWithinAt (s := {t | X.Mem t})
  have hs := (hasDerivWithinAt_iff_tendsto_slope.1 hu).abs
  have hC := hs.eventually (gt_mem_nhds (show |X.unitSlope x| < |X.unitSlope x| + 1 by linarith))
  refine (tendsto_tsum_of_dominated_convergence (f := fun t k => slope (fun t => g k (X.unit t)) x t) (hb.mul_right (|X.unitSlope x| + 1)) (fun k => ?_)
    ?_).congr' ?_
  · exact hasDerivWithinAt_iff_tendsto_slope.1 ((hd k).comp x (Domain.hasDerivAt_unit hX hx)).hasDerivWithinAt
  · filter_upwards [hC, self_mem_nhdsWithin] with t h3 ht k
    rw [Real.norm_eq_abs, slope_def_field, abs_div]
    rw [slope_def_field, abs_div] at h3
    have h4 := hg' k _ _ (domain_unit_le hX (show X.Mem t from ht.1)) (domain_unit_le hX hx)
    calc _ ≤ |b k| * |X.unit t - X.unit x| / |t - x| := div_le_div_of_nonneg_right h4 (abs_nonneg _)
      _ = |b k| * (|X.unit t - X.unit x| / |t - x|) := mul_div_assoc _ _ _
      _ ≤ _ := mul_le_mul_of_nonneg_left h3.le (abs_nonneg _)
  · filter_upwards [self_mem_nhdsWithin] with t ht
    rw [slope_def_field, ← ((h2 t ht.1).sub (h2 x hx)).tsum_eq, ← tsum_div_const]
    exact tsum_congr fun k => slope_def_field _ _ _

/-! ## The terms -/

theorem cheb_lip (k : Nat) {u u' : ℝ} (hu : |u| ≤ 1) (hu' : |u'| ≤ 1) :
    |(Chebyshev.T ℝ k).eval u - (Chebyshev.T ℝ k).eval u'| ≤ (k : ℝ) ^ 2 * |u - u'| := by
  have := chebT_lipschitz k hu hu'
  rwa [chebT_eq, chebT_eq] at this

theorem aliasT_lip (n k : Nat) {u u' : ℝ} (hu : |u| ≤ 1) (hu' : |u'| ≤ 1) : |aliasT n k u - aliasT n k u'| ≤ (k : ℝ) ^ 2 * |u - u'| := by
  obtain ⟨p, h1, h2, -, -, i, c, h3, h4, rfl⟩ := cheb_alias n k
  have e : ∀ u, aliasT n k u = c * (Chebyshev.T ℝ i).eval u := fun u => by
    rw [aliasT, chebInterp_congr n (g' := fun r => (C c * Chebyshev.T ℝ i).eval (chebNode n r)) h2, chebInterp_poly n _ h1, eval_mul, eval_C]
  rw [e, e, ← mul_sub, abs_mul]
  have h5 := cheb_lip i hu hu'
  have h6 : (i : ℝ) ^ 2 ≤ (k : ℝ) ^ 2 := by
    have : (i : ℝ) ≤ k := by exact_mod_cast h3
    gcongr
  calc _ ≤ 1 * ((i : ℝ) ^ 2 * |u - u'|) := mul_le_mul h4 h5 (abs_nonneg _) zero_le_one
    _ = (i : ℝ) ^ 2 * |u - u'| := one_mul _
    _ ≤ _ := mul_le_mul_of_nonneg_right h6 (abs_nonneg _)

/-- A term of a sum, as a function of one of the variables. -/
theorem term_lip {a p q r K δ : ℝ} (hp : |p| ≤ 1) (h : |q - r| ≤ K * δ) (hK : 0 ≤ K) : |a * p * q - a * p * r| ≤ |K * a| * δ := by
  rw [← mul_sub, abs_mul, abs_mul, abs_mul, abs_of_nonneg hK]
  calc _ ≤ |a| * 1 * (K * δ) := mul_le_mul (mul_le_mul_of_nonneg_left hp (abs_nonneg _)) h (abs_nonneg _) (by positivity)
    _ = _ := by ring

/-- Derivative of the computed series and of the function, for sums of products of a factor that does not depend on the variable and of one that does. -/
theorem series_deriv {ι : Type} {X : Domain ℝ} (hX : X.Usual) {x : ℝ} (hx : X.Mem x) {E : ℝ → Res ℝ} {Dv : Res ℝ} (hE : IsDerivAt E Dv x)
    {S F : ℝ → ℝ} (hES : ∀ t, X.Mem t → E t = .ok (S t)) {a p q K G' : ι → ℝ} {A G : ι → ℝ → ℝ} {good : ι → Prop} [DecidablePred good]
    (hb : Summable (fun k => |K k * a k|)) (hp : ∀ k, |p k| ≤ 1) (hq : ∀ k, |q k| ≤ 1) (hK : ∀ k, 0 ≤ K k)
    (hA : ∀ k u u', |u| ≤ 1 → |u'| ≤ 1 → |A k u - A k u'| ≤ K k * |u - u'|) (hG : ∀ k u u', |u| ≤ 1 → |u'| ≤ 1 → |G k u - G k u'| ≤ K k * |u - u'|)
    (hG' : ∀ k, HasDerivAt (G k) (G' k) (X.unit x)) (h1 : ∀ t, X.Mem t → HasSum (fun k => a k * p k * A k (X.unit t)) (S t))
    (h2 : ∀ t, X.Mem t → HasSum (fun k => a k * q k * G k (X.unit t)) (F t)) (hgood : ∀ k, good k → p k = q k ∧ ∀ u, A k u = G k u) :
    ∃ v d, Dv = .ok v ∧ HasDerivWithinAt F d {t | X.Mem t} x ∧ |v - d| ≤ (2 * ∑' k, if good k then 0 else |K k * a k|) * X.unitSlope x := by
  have hlip : ∀ k u u', |u| ≤ 1 → |u'| ≤ 1 → |a k * q k * G k u - a k * q k * G k u'| ≤ |K k * a k| * |u - u'| :=
    fun k u u' hu hu' => term_lip (hq k) (hG k u u' hu hu') (hK k)
  obtain ⟨d, hd⟩ := series_differentiable hX hx (b := fun k => K k * a k) hb (g := fun k u => a k * q k * G k u) h2 (fun k => (hG' k).const_mul _) hlip
  obtain ⟨v, h3, h4⟩ := series_deriv_close hX hx hE hES hd (f := fun k u => a k * p k * A k u) (g := fun k u => a k * q k * G k u)
    (b := fun k => K k * a k) good hb h1 h2 (fun k hk u => by rw [(hgood k hk).1, (hgood k hk).2])
    (fun k u u' hu hu' => term_lip (hp k) (hA k u u' hu hu') (hK k)) hlip
  exact ⟨v, d, h3, hd, h4⟩

/-! ## C136 -/

/-- C136, one variable: if `F` is the sum of a Chebyshev series with `∑ k² |a_k|` finite, it is differentiable on the domain, and the derivative returned at
order `n` is that of `F` up to twice the sum of the `k² |a_k|` after the first `n + 1`, times the slope of the map to `[-1, 1]`. -/
theorem C136_error_1d (B : Build) {F : ℝ → ℝ} {n : Nat} {s : CS1 ℝ} {X : Domain ℝ} (hs : Fresh1 F n s X)
    (hX : X.Usual) {a : ℕ → ℝ} (hF : Expansion1 a F X) (ha : Summable (fun k : ℕ => |(k : ℝ) ^ 2 * a k|)) :
    ∃ s', s.computeAi B = .ok s' ∧ ∀ x, X.Mem x → ∃ v d, s'.evaluateDerivativeX B x = .ok v ∧
      HasDerivWithinAt (fun t => F t) d {t | X.Mem t} x ∧
      |v - d| ≤ (2 * ∑' k : ℕ, if k ≤ n then 0 else |(k : ℝ) ^ 2 * a k|) * X.unitSlope x := by
  obtain ⟨sx, rfl, h⟩ := hs.holds
  obtain ⟨s', h1, h2⟩ := CS1.computeAi_ok B h
  refine ⟨s', h1, fun x hx => ?_⟩
  have hE := (C35_derivative_1d B (.compute (.fresh hs) h1) (Domain.mem_unit hX hx).1)
  have hval : ∀ t, sx.dom.Mem t → s'.evaluate B t = .ok (chebInterp n (fun r => F (sx.dom.node n r)) (sx.dom.unit t)) := fun t ht => by
    rw [CS1.evaluate_ok B h2 (Domain.mem_unit hX ht).1, cheb1_next]
  refine series_deriv hX hx hE hval (a := a) (K := fun k : ℕ => (k : ℝ) ^ 2) (p := fun k => 1)
    (q := fun k => 1)
    (A := fun k u => aliasT n k u) (G := fun k u => (Chebyshev.T ℝ k).eval u) (good := fun k => k ≤ n) ha
    (fun k => by simp) (fun k => by simp)
    (fun k => by positivity) (fun k u u' hu hu' => aliasT_lip _ _ hu hu') (fun k u u' hu hu' => cheb_lip _ hu hu') (fun k => (Chebyshev.T ℝ _).hasDerivAt _)
    (fun t ht => ?_) (fun t ht => ?_) (fun k hk => ⟨by rfl, fun u => aliasT_eq hk u⟩)
  · refine hasSum_congr_fun' (expansion_interp_1d hX hF n (sx.dom.unit t)) fun k => ?_
    ring
  · refine hasSum_congr_fun' (hF.2 t ht) fun k => ?_
    ring

/-- C136, two variables, derivative in `x`. -/
theorem C136_error_2d_x (B : Build) {F : ℝ → ℝ → ℝ} {n m : Nat} {s : CS2 ℝ} {X Y : Domain ℝ} (hs : Fresh2 F n m s X Y)
    (hX : X.Usual) (hY : Y.Usual) {a : ℕ × ℕ → ℝ} (hF : Expansion2 a F X Y) (ha : Summable (fun k : ℕ × ℕ => |(k.1 : ℝ) ^ 2 * a k|)) :
    ∃ s', s.computeAij B = .ok s' ∧ ∀ x y, X.Mem x → Y.Mem y → ∃ v d, s'.evaluateDerivativeX B x y = .ok v ∧
      HasDerivWithinAt (fun t => F t y) d {t | X.Mem t} x ∧
      |v - d| ≤ (2 * ∑' k : ℕ × ℕ, if k.1 ≤ n ∧ k.2 ≤ m then 0 else |(k.1 : ℝ) ^ 2 * a k|) * X.unitSlope x := by
  obtain ⟨sx, sy, rfl, rfl, h⟩ := hs.holds
  obtain ⟨s', h1, h2⟩ := CS2.computeAij_ok B h
  refine ⟨s', h1, fun x y hx hy => ?_⟩
  have hE := (C35_derivative_2d B (.compute (.fresh hs) h1) (Domain.mem_unit hX hx).1 (Domain.mem_unit hY hy).1).1
  have hval : ∀ t, sx.dom.Mem t → s'.evaluate B t y = .ok (chebInterp n (fun r => chebInterp m (fun t => F (sx.dom.node n r) (sy.dom.node m t)) (sy.dom.unit y)) (sx.dom.unit t)) := fun t ht => by
    rw [CS2.evaluate_ok B h2 (Domain.mem_unit hX ht).1 (Domain.mem_unit hY hy).1, cheb2_next]
  refine series_deriv hX hx hE hval (a := a) (K := fun k : ℕ × ℕ => (k.1 : ℝ) ^ 2) (p := fun k => aliasT m k.2 (sy.dom.unit y))
    (q := fun k => (Chebyshev.T ℝ k.2).eval (sy.dom.unit y))
    (A := fun k u => aliasT n k.1 u) (G := fun k u => (Chebyshev.T ℝ k.1).eval u) (good := fun k => k.1 ≤ n ∧ k.2 ≤ m) ha
    (fun k => abs_aliasT_le m k.2 (domain_unit_le hY hy)) (fun k => Chebyshev.abs_eval_T_real_le_one k.2 (domain_unit_le hY hy))
    (fun k => by positivity) (fun k u u' hu hu' => aliasT_lip _ _ hu hu') (fun k u u' hu hu' => cheb_lip _ hu hu') (fun k => (Chebyshev.T ℝ _).hasDerivAt _)
    (fun t ht => ?_) (fun t ht => ?_) (fun k hk => ⟨by rw [aliasT_eq hk.2], fun u => aliasT_eq hk.1 u⟩)
  · refine hasSum_congr_fun' (expansion_interp_2d hX hY hF n m (sx.dom.unit t) (sy.dom.unit y)) fun k => ?_
    ring
  · refine hasSum_congr_fun' (hF.2 t y ht hy) fun k => ?_
    ring

/-- C136, two variables, derivative in `y`. -/
theorem C136_error_2d_y (B : Build) {F : ℝ → ℝ → ℝ} {n m : Nat} {s : CS2 ℝ} {X Y : Domain ℝ} (hs : Fresh2 F n m s X Y)
    (hX : X.Usual) (hY : Y.Usual) {a : ℕ × ℕ → ℝ} (hF : Expansion2 a F X Y) (ha : Summable (fun k : ℕ × ℕ => |(k.2 : ℝ) ^ 2 * a k|)) :
    ∃ s', s.computeAij B = .ok s' ∧ ∀ x y, X.Mem x → Y.Mem y → ∃ v d, s'.evaluateDerivativeY B x y = .ok v ∧
      HasDerivWithinAt (fun t => F x t) d {t | Y.Mem t} y ∧
      |v - d| ≤ (2 * ∑' k : ℕ × ℕ, if k.1 ≤ n ∧ k.2 ≤ m then 0 else |(k.2 : ℝ) ^ 2 * a k|) * Y.unitSlope y := by
  obtain ⟨sx, sy, rfl, rfl, h⟩ := hs.holds
  obtain ⟨s', h1, h2⟩ := CS2.computeAij_ok B h
  refine ⟨s', h1, fun x y hx hy => ?_⟩
  have hE := (C35_derivative_2d B (.compute (.fresh hs) h1) (Domain.mem_unit hX hx).1 (Domain.mem_unit hY hy).1).2
  have hval : ∀ t, sy.dom.Mem t → s'.evaluate B x t = .ok (chebInterp n (fun r => chebInterp m (fun t => F (sx.dom.node n r) (sy.dom.node m t)) (sy.dom.unit t)) (sx.dom.unit x)) := fun t ht => by
    rw [CS2.evaluate_ok B h2 (Domain.mem_unit hX hx).1 (Domain.mem_unit hY ht).1, cheb2_next]
  refine series_deriv hY hy hE hval (a := a) (K := fun k : ℕ × ℕ => (k.2 : ℝ) ^ 2) (p := fun k => aliasT n k.1 (sx.dom.unit x))
    (q := fun k => (Chebyshev.T ℝ k.1).eval (sx.dom.unit x))
    (A := fun k u => aliasT m k.2 u) (G := fun k u => (Chebyshev.T ℝ k.2).eval u) (good := fun k => k.1 ≤ n ∧ k.2 ≤ m) ha
    (fun k => abs_aliasT_le n k.1 (domain_unit_le hX hx)) (fun k => Chebyshev.abs_eval_T_real_le_one k.1 (domain_unit_le hX hx))
    (fun k => by positivity) (fun k u u' hu hu' => aliasT_lip _ _ hu hu') (fun k u u' hu hu' => cheb_lip _ hu hu') (fun k => (Chebyshev.T ℝ _).hasDerivAt _)
    (fun t ht => ?_) (fun t ht => ?_) (fun k hk => ⟨by rw [aliasT_eq hk.1], fun u => aliasT_eq hk.2 u⟩)
  · refine hasSum_congr_fun' (expansion_interp_2d hX hY hF n m (sx.dom.unit x) (sy.dom.unit t)) fun k => ?_
    ring
  · refine hasSum_congr_fun' (hF.2 x t hx ht) fun k => ?_
    ring

/-- C136, three variables, derivative in `x`. -/
theorem C136_error_3d_x (B : Build) {F : ℝ → ℝ → ℝ → ℝ} {n m l : Nat} {s : CS3 ℝ} {X Y Z : Domain ℝ} (hs : Fresh3 F n m l s X Y Z)
    (hX : X.Usual) (hY : Y.Usual) (hZ : Z.Usual) {a : ℕ × ℕ × ℕ → ℝ} (hF : Expansion3 a F X Y Z) (ha : Summable (fun k : ℕ × ℕ × ℕ => |(k.1 : ℝ) ^ 2 * a k|)) :
    ∃ s', s.computeAijk B = .ok s' ∧ ∀ x y z, X.Mem x → Y.Mem y → Z.Mem z → ∃ v d, s'.evaluateDerivativeX B x y z = .ok v ∧
      HasDerivWithinAt (fun t => F t y z) d {t | X.Mem t} x ∧
      |v - d| ≤ (2 * ∑' k : ℕ × ℕ × ℕ, if k.1 ≤ n ∧ k.2.1 ≤ m ∧ k.2.2 ≤ l then 0 else |(k.1 : ℝ) ^ 2 * a k|) * X.unitSlope x := by
  obtain ⟨sx, sy, sz, rfl, rfl, rfl, h⟩ := hs.holds
  obtain ⟨s', h1, h2⟩ := CS3.computeAijk_ok B h
  refine ⟨s', h1, fun x y z hx hy hz => ?_⟩
  have hE := (C35_derivative_3d B (.compute (.fresh hs) h1) (Domain.mem_unit hX hx).1 (Domain.mem_unit hY hy).1 (Domain.mem_unit hZ hz).1).1
  have hval : ∀ t, sx.dom.Mem t → s'.evaluate B t y z = .ok (chebInterp l (fun c => chebInterp n (fun r => chebInterp m (fun q => F (sx.dom.node n r) (sy.dom.node m q) (sz.dom.node l c)) (sy.dom.unit y)) (sx.dom.unit t)) (sz.dom.unit z)) := fun t ht => by
    rw [CS3.evaluate_ok B h2 (Domain.mem_unit hX ht).1 (Domain.mem_unit hY hy).1 (Domain.mem_unit hZ hz).1, cheb3_next]
  refine series_deriv hX hx hE hval (a := a) (K := fun k : ℕ × ℕ × ℕ => (k.1 : ℝ) ^ 2) (p := fun k => aliasT m k.2.1 (sy.dom.unit y) * aliasT l k.2.2 (sz.dom.unit z))
    (q := fun k => (Chebyshev.T ℝ k.2.1).eval (sy.dom.unit y) * (Chebyshev.T ℝ k.2.2).eval (sz.dom.unit z))
    (A := fun k u => aliasT n k.1 u) (G := fun k u => (Chebyshev.T ℝ k.1).eval u) (good := fun k => k.1 ≤ n ∧ k.2.1 ≤ m ∧ k.2.2 ≤ l) ha
    (fun k => abs_mul_le_one (abs_aliasT_le m k.2.1 (domain_unit_le hY hy)) (abs_aliasT_le l k.2.2 (domain_unit_le hZ hz))) (fun k => abs_mul_le_one (Chebyshev.abs_eval_T_real_le_one k.2.1 (domain_unit_le hY hy)) (Chebyshev.abs_eval_T_real_le_one k.2.2 (domain_unit_le hZ hz)))
    (fun k => by positivity) (fun k u u' hu hu' => aliasT_lip _ _ hu hu') (fun k u u' hu hu' => cheb_lip _ hu hu') (fun k => (Chebyshev.T ℝ _).hasDerivAt _)
    (fun t ht => ?_) (fun t ht => ?_) (fun k hk => ⟨by rw [aliasT_eq hk.2.1, aliasT_eq hk.2.2], fun u => aliasT_eq hk.1 u⟩)
  · refine hasSum_congr_fun' (expansion_interp_3d hX hY hZ hF n m l (sx.dom.unit t) (sy.dom.unit y) (sz.dom.unit z)) fun k => ?_
    ring
  · refine hasSum_congr_fun' (hF.2 t y z ht hy hz) fun k => ?_
    ring

/-- C136, three variables, derivative in `y`. -/
theorem C136_error_3d_y (B : Build) {F : ℝ → ℝ → ℝ → ℝ} {n m l : Nat} {s : CS3 ℝ} {X Y Z : Domain ℝ} (hs : Fresh3 F n m l s X Y Z)
    (hX : X.Usual) (hY : Y.Usual) (hZ : Z.Usual) {a : ℕ × ℕ × ℕ → ℝ} (hF : Expansion3 a F X Y Z) (ha : Summable (fun k : ℕ × ℕ × ℕ => |(k.2.1 : ℝ) ^ 2 * a k|)) :
    ∃ s', s.computeAijk B = .ok s' ∧ ∀ x y z, X.Mem x → Y.Mem y → Z.Mem z → ∃ v d, s'.evaluateDerivativeY B x y z = .ok v ∧
      HasDerivWithinAt (fun t => F x t z) d {t | Y.Mem t} y ∧
      |v - d| ≤ (2 * ∑' k : ℕ × ℕ × ℕ, if k.1 ≤ n ∧ k.2.1 ≤ m ∧ k.2.2 ≤ l then 0 else |(k.2.1 : ℝ) ^ 2 * a k|) * Y.unitSlope y := by
  obtain ⟨sx, sy, sz, rfl, rfl, rfl, h⟩ := hs.holds
  obtain ⟨s', h1, h2⟩ := CS3.computeAijk_ok B h
  refine ⟨s', h1, fun x y z hx hy hz => ?_⟩
  have hE := (C35_derivative_3d B (.compute (.fresh hs) h1) (Domain.mem_unit hX hx).1 (Domain.mem_unit hY hy).1 (Domain.mem_unit hZ hz).1).2.1
  have hval : ∀ t, sy.dom.Mem t → s'.evaluate B x t z = .ok (chebInterp l (fun c => chebInterp n (fun r => chebInterp m (fun q => F (sx.dom.node n r) (sy.dom.node m q) (sz.dom.node l c)) (sy.dom.unit t)) (sx.dom.unit x)) (sz.dom.unit z)) := fun t ht => by
    rw [CS3.evaluate_ok B h2 (Domain.mem_unit hX hx).1 (Domain.mem_unit hY ht).1 (Domain.mem_unit hZ hz).1, cheb3_next]
  refine series_deriv hY hy hE hval (a := a) (K := fun k : ℕ × ℕ × ℕ => (k.2.1 : ℝ) ^ 2) (p := fun k => aliasT n k.1 (sx.dom.unit x) * aliasT l k.2.2 (sz.dom.unit z))
    (q := fun k => (Chebyshev.T ℝ k.1).eval (sx.dom.unit x) * (Chebyshev.T ℝ k.2.2).eval (sz.dom.unit z))
    (A := fun k u => aliasT m k.2.1 u) (G := fun k u => (Chebyshev.T ℝ k.2.1).eval u) (good := fun k => k.1 ≤ n ∧ k.2.1 ≤ m ∧ k.2.2 ≤ l) ha
    (fun k => abs_mul_le_one (abs_aliasT_le n k.1 (domain_unit_le hX hx)) (abs_aliasT_le l k.2.2 (domain_unit_le hZ hz))) (fun k => abs_mul_le_one (Chebyshev.abs_eval_T_real_le_one k.1 (domain_unit_le hX hx)) (Chebyshev.abs_eval_T_real_le_one k.2.2 (domain_unit_le hZ hz)))
    (fun k => by positivity) (fun k u u' hu hu' => aliasT_lip _ _ hu hu') (fun k u u' hu hu' => cheb_lip _ hu hu') (fun k => (Chebyshev.T ℝ _).hasDerivAt _)
    (fun t ht => ?_) (fun t ht => ?_) (fun k hk => ⟨by rw [aliasT_eq hk.1, aliasT_eq hk.2.2], fun u => aliasT_eq hk.2.1 u⟩)
  · refine hasSum_congr_fun' (expansion_interp_3d hX hY hZ hF n m l (sx.dom.unit x) (sy.dom.unit t) (sz.dom.unit z)) fun k => ?_
    ring
  · refine hasSum_congr_fun' (hF.2 x t z hx ht hz) fun k => ?_
    ring

/-- C136, three variables, derivative in `z`. -/
theorem C136_error_3d_z (B : Build) {F : ℝ → ℝ → ℝ → ℝ} {n m l : Nat} {s : CS3 ℝ} {X Y Z : Domain ℝ} (hs : Fresh3 F n m l s X Y Z)
    (hX : X.Usual) (hY : Y.Usual) (hZ : Z.Usual) {a : ℕ × ℕ × ℕ → ℝ} (hF : Expansion3 a F X Y Z) (ha : Summable (fun k : ℕ × ℕ × ℕ => |(k.2.2 : ℝ) ^ 2 * a k|)) :
    ∃ s', s.computeAijk B = .ok s' ∧ ∀ x y z, X.Mem x → Y.Mem y → Z.Mem z → ∃ v d, s'.evaluateDerivativeZ B x y z = .ok v ∧
      HasDerivWithinAt (fun t => F x y t) d {t | Z.Mem t} z ∧
      |v - d| ≤ (2 * ∑' k : ℕ × ℕ × ℕ, if k.1 ≤ n ∧ k.2.1 ≤ m ∧ k.2.2 ≤ l then 0 else |(k.2.2 : ℝ) ^ 2 * a k|) * Z.unitSlope z := by
  obtain ⟨sx, sy, sz, rfl, rfl, rfl, h⟩ := hs.holds
  obtain ⟨s', h1, h2⟩ := CS3.computeAijk_ok B h
  refine ⟨s', h1, fun x y z hx hy hz => ?_⟩
  have hE := (C35_derivative_3d B (.compute (.fresh hs) h1) (Domain.mem_unit hX hx).1 (Domain.mem_unit hY hy).1 (Domain.mem_unit hZ hz).1).2.2
  have hval : ∀ t, sz.dom.Mem t → s'.evaluate B x y t = .ok (chebInterp l (fun c => chebInterp n (fun r => chebInterp m (fun q => F (sx.dom.node n r) (sy.dom.node m q) (sz.dom.node l c)) (sy.dom.unit y)) (sx.dom.unit x)) (sz.dom.unit t)) := fun t ht => by
    rw [CS3.evaluate_ok B h2 (Domain.mem_unit hX hx).1 (Domain.mem_unit hY hy).1 (Domain.mem_unit hZ ht).1, cheb3_next]
  refine series_deriv hZ hz hE hval (a := a) (K := fun k : ℕ × ℕ × ℕ => (k.2.2 : ℝ) ^ 2) (p := fun k => aliasT n k.1 (sx.dom.unit x) * aliasT m k.2.1 (sy.dom.unit y))
    (q := fun k => (Chebyshev.T ℝ k.1).eval (sx.dom.unit x) * (Chebyshev.T ℝ k.2.1).eval (sy.dom.unit y))
    (A := fun k u => aliasT l k.2.2 u) (G := fun k u => (Chebyshev.T ℝ k.2.2).eval u) (good := fun k => k.1 ≤ n ∧ k.2.1 ≤ m ∧ k.2.2 ≤ l) ha
    (fun k => abs_mul_le_one (abs_aliasT_le n k.1 (domain_unit_le hX hx)) (abs_aliasT_le m k.2.1 (domain_unit_le hY hy))) (fun k => abs_mul_le_one (Chebyshev.abs_eval_T_real_le_one k.1 (domain_unit_le hX hx)) (Chebyshev.abs_eval_T_real_le_one k.2.1 (domain_unit_le hY hy)))
    (fun k => by positivity) (fun k u u' hu hu' => aliasT_lip _ _ hu hu') (fun k u u' hu hu' => cheb_lip _ hu hu') (fun k => (Chebyshev.T ℝ _).hasDerivAt _)
    (fun t ht => ?_) (fun t ht => ?_) (fun k hk => ⟨by rw [aliasT_eq hk.1, aliasT_eq hk.2.1], fun u => aliasT_eq hk.2.2 u⟩)
  · refine hasSum_congr_fun' (expansion_interp_3d hX hY hZ hF n m l (sx.dom.unit x) (sy.dom.unit y) (sz.dom.unit t)) fun k => ?_
    ring
  · refine hasSum_congr_fun' (hF.2 x y t hx hy ht) fun k => ?_
    ring

/-- The slope is bounded on the domain. -/
theorem Domain.unitSlope_le {X : Domain ℝ} (hX : X.Usual) : ∃ C, 0 < C ∧ ∀ x, X.Mem x → X.unitSlope x ≤ C := by
  cases X with
  | segment a b =>
    have hX : a < b := hX
    exact ⟨2 / (b - a), div_pos two_pos (by linarith), fun x _ => le_rfl⟩
  | halfLine a =>
    have hX : 0 < a := hX
    refine ⟨2 * a / a ^ 2, by positivity, fun x hx => ?_⟩
    have hx : a ≤ x := hx
    show 2 * a / x ^ 2 ≤ _
    gcongr

theorem slope_tail {ι : Type} {b : ι → ℝ} (hb : Summable (fun k => |b k|)) {g1 g2 : ι → Prop} [DecidablePred g1] [DecidablePred g2] {ε C c : ℝ}
    (hC : 0 < C) (h : 2 * ∑' k, (if g1 k then 0 else |b k|) ≤ ε / C) (h12 : ∀ k, g1 k → g2 k) (hc : 0 ≤ c) (hcC : c ≤ C) :
    (2 * ∑' k, (if g2 k then 0 else |b k|)) * c ≤ ε := by
  have h1 := tail_mono hb h12
  have h0 : 0 ≤ ∑' k, (if g2 k then 0 else |b k|) := tsum_nonneg fun k => by
    split_ifs
    · exact le_rfl
    · exact abs_nonneg _
  calc _ ≤ ε / C * C := mul_le_mul (by linarith) hcC hc (by linarith)
    _ = ε := div_mul_cancel₀ _ hC.ne'

/-- C136, convergence: with enough terms the derivative returned is as close to that of `F` as wanted, at every point of the domain at once. -/
theorem C136_converges_1d (B : Build) {F : ℝ → ℝ} {X : Domain ℝ} (hX : X.Usual) {a : ℕ → ℝ}
    (hF : Expansion1 a F X) (ha : Summable (fun k : ℕ => |(k : ℝ) ^ 2 * a k|)) {ε : ℝ} (hε : 0 < ε) :
    ∃ N, ∀ n, N ≤ n → ∀ s, Fresh1 F n s X → ∃ s', s.computeAi B = .ok s' ∧ ∀ x, X.Mem x →
      ∃ v d, s'.evaluateDerivativeX B x = .ok v ∧ HasDerivWithinAt (fun t => F t) d {t | X.Mem t} x ∧ |v - d| ≤ ε := by
  obtain ⟨C, hC, hC'⟩ := Domain.unitSlope_le hX
  obtain ⟨N, hN⟩ := tail_small ha (good := fun (n : Nat) (k : ℕ) => k ≤ n) (fun k => ⟨k, fun n h => h⟩) (div_pos hε hC)
  refine ⟨N, fun n hn s hs => ?_⟩
  obtain ⟨s', h1, h2⟩ := C136_error_1d B hs hX hF ha
  refine ⟨s', h1, fun x hx => ?_⟩
  obtain ⟨v, d, h3, h4, h5⟩ := h2 x hx
  refine ⟨v, d, h3, h4, h5.trans ?_⟩
  exact slope_tail ha hC (hN N le_rfl) (fun k hk => hk.trans hn) (Domain.unitSlope_pos hX hx).le (hC' _ hx)

/-- C136, convergence in two variables, derivative in `x`. -/
theorem C136_converges_2d_x (B : Build) {F : ℝ → ℝ → ℝ} {X Y : Domain ℝ} (hX : X.Usual) (hY : Y.Usual) {a : ℕ × ℕ → ℝ}
    (hF : Expansion2 a F X Y) (ha : Summable (fun k : ℕ × ℕ => |(k.1 : ℝ) ^ 2 * a k|)) {ε : ℝ} (hε : 0 < ε) :
    ∃ N, ∀ n m, N ≤ n → N ≤ m → ∀ s, Fresh2 F n m s X Y → ∃ s', s.computeAij B = .ok s' ∧ ∀ x y, X.Mem x → Y.Mem y →
      ∃ v d, s'.evaluateDerivativeX B x y = .ok v ∧ HasDerivWithinAt (fun t => F t y) d {t | X.Mem t} x ∧ |v - d| ≤ ε := by
  obtain ⟨C, hC, hC'⟩ := Domain.unitSlope_le hX
  obtain ⟨N, hN⟩ := tail_small ha (good := fun (n : Nat) (k : ℕ × ℕ) => k.1 ≤ n ∧ k.2 ≤ n) (fun k => ⟨max k.1 k.2, fun n h => ⟨(le_max_left _ _).trans h, (le_max_right _ _).trans h⟩⟩) (div_pos hε hC)
  refine ⟨N, fun n m hn hm s hs => ?_⟩
  obtain ⟨s', h1, h2⟩ := C136_error_2d_x B hs hX hY hF ha
  refine ⟨s', h1, fun x y hx hy => ?_⟩
  obtain ⟨v, d, h3, h4, h5⟩ := h2 x y hx hy
  refine ⟨v, d, h3, h4, h5.trans ?_⟩
  exact slope_tail ha hC (hN N le_rfl) (fun k hk => ⟨hk.1.trans hn, hk.2.trans hm⟩) (Domain.unitSlope_pos hX hx).le (hC' _ hx)

/-- C136, convergence in two variables, derivative in `y`. -/
theorem C136_converges_2d_y (B : Build) {F : ℝ → ℝ → ℝ} {X Y : Domain ℝ} (hX : X.Usual) (hY : Y.Usual) {a : ℕ × ℕ → ℝ}
    (hF : Expansion2 a F X Y) (ha : Summable (fun k : ℕ × ℕ => |(k.2 : ℝ) ^ 2 * a k|)) {ε : ℝ} (hε : 0 < ε) :
    ∃ N, ∀ n m, N ≤ n → N ≤ m → ∀ s, Fresh2 F n m s X Y → ∃ s', s.computeAij B = .ok s' ∧ ∀ x y, X.Mem x → Y.Mem y →
      ∃ v d, s'.evaluateDerivativeY B x y = .ok v ∧ HasDerivWithinAt (fun t => F x t) d {t | Y.Mem t} y ∧ |v - d| ≤ ε := by
  obtain ⟨C, hC, hC'⟩ := Domain.unitSlope_le hY
  obtain ⟨N, hN⟩ := tail_small ha (good := fun (n : Nat) (k : ℕ × ℕ) => k.1 ≤ n ∧ k.2 ≤ n) (fun k => ⟨max k.1 k.2, fun n h => ⟨(le_max_left _ _).trans h, (le_max_right _ _).trans h⟩⟩) (div_pos hε hC)
  refine ⟨N, fun n m hn hm s hs => ?_⟩
  obtain ⟨s', h1, h2⟩ := C136_error_2d_y B hs hX hY hF ha
  refine ⟨s', h1, fun x y hx hy => ?_⟩
  obtain ⟨v, d, h3, h4, h5⟩ := h2 x y hx hy
  refine ⟨v, d, h3, h4, h5.trans ?_⟩
  exact slope_tail ha hC (hN N le_rfl) (fun k hk => ⟨hk.1.trans hn, hk.2.trans hm⟩) (Domain.unitSlope_pos hY hy).le (hC' _ hy)

/-- C136, convergence in three variables, derivative in `x`. -/
theorem C136_converges_3d_x (B : Build) {F : ℝ → ℝ → ℝ → ℝ} {X Y Z : Domain ℝ} (hX : X.Usual) (hY : Y.Usual) (hZ : Z.Usual) {a : ℕ × ℕ × ℕ → ℝ}
    (hF : Expansion3 a F X Y Z) (ha : Summable (fun k : ℕ × ℕ × ℕ => |(k.1 : ℝ) ^ 2 * a k|)) {ε : ℝ} (hε : 0 < ε) :
    ∃ N, ∀ n m l, N ≤ n → N ≤ m → N ≤ l → ∀ s, Fresh3 F n m l s X Y Z → ∃ s', s.computeAijk B = .ok s' ∧ ∀ x y z, X.Mem x → Y.Mem y → Z.Mem z →
      ∃ v d, s'.evaluateDerivativeX B x y z = .ok v ∧ HasDerivWithinAt (fun t => F t y z) d {t | X.Mem t} x ∧ |v - d| ≤ ε := by
  obtain ⟨C, hC, hC'⟩ := Domain.unitSlope_le hX
  obtain ⟨N, hN⟩ := tail_small ha (good := fun (n : Nat) (k : ℕ × ℕ × ℕ) => k.1 ≤ n ∧ k.2.1 ≤ n ∧ k.2.2 ≤ n) (fun k => ⟨max k.1 (max k.2.1 k.2.2), fun n h => ⟨(le_max_left _ _).trans h, ((le_max_left _ _).trans (le_max_right _ _)).trans h,
      ((le_max_right _ _).trans (le_max_right _ _)).trans h⟩⟩) (div_pos hε hC)
  refine ⟨N, fun n m l hn hm hl s hs => ?_⟩
  obtain ⟨s', h1, h2⟩ := C136_error_3d_x B hs hX hY hZ hF ha
  refine ⟨s', h1, fun x y z hx hy hz => ?_⟩
  obtain ⟨v, d, h3, h4, h5⟩ := h2 x y z hx hy hz
  refine ⟨v, d, h3, h4, h5.trans ?_⟩
  exact slope_tail ha hC (hN N le_rfl) (fun k hk => ⟨hk.1.trans hn, hk.2.1.trans hm, hk.2.2.trans hl⟩) (Domain.unitSlope_pos hX hx).le (hC' _ hx)

/-- C136, convergence in three variables, derivative in `y`. -/
theorem C136_converges_3d_y (B : Build) {F : ℝ → ℝ → ℝ → ℝ} {X Y Z : Domain ℝ} (hX : X.Usual) (hY : Y.Usual) (hZ : Z.Usual) {a : ℕ × ℕ × ℕ → ℝ}
    (hF : Expansion3 a F X Y Z) (ha : Summable (fun k : ℕ × ℕ × ℕ => |(k.2.1 : ℝ) ^ 2 * a k|)) {ε : ℝ} (hε : 0 < ε) :
    ∃ N, ∀ n m l, N ≤ n → N ≤ m → N ≤ l → ∀ s, Fresh3 F n m l s X Y Z → ∃ s', s.computeAijk B = .ok s' ∧ ∀ x y z, X.Mem x → Y.Mem y → Z.Mem z →
      ∃ v d, s'.evaluateDerivativeY B x y z = .ok v ∧ HasDerivWithinAt (fun t => F x t z) d {t | Y.Mem t} y ∧ |v - d| ≤ ε := by
  obtain ⟨C, hC, hC'⟩ := Domain.unitSlope_le hY
  obtain ⟨N, hN⟩ := tail_small ha (good := fun (n : Nat) (k : ℕ × ℕ × ℕ) => k.1 ≤ n ∧ k.2.1 ≤ n ∧ k.2.2 ≤ n) (fun k => ⟨max k.1 (max k.2.1 k.2.2), fun n h => ⟨(le_max_left _ _).trans h, ((le_max_left _ _).trans (le_max_right _ _)).trans h,
      ((le_max_right _ _).trans (le_max_right _ _)).trans h⟩⟩) (div_pos hε hC)
  refine ⟨N, fun n m l hn hm hl s hs => ?_⟩
  obtain ⟨s', h1, h2⟩ := C136_error_3d_y B hs hX hY hZ hF ha
  refine ⟨s', h1, fun x y z hx hy hz => ?_⟩
  obtain ⟨v, d, h3, h4, h5⟩ := h2 x y z hx hy hz
  refine ⟨v, d, h3, h4, h5.trans ?_⟩
  exact slope_tail ha hC (hN N le_rfl) (fun k hk => ⟨hk.1.trans hn, hk.2.1.trans hm, hk.2.2.trans hl⟩) (Domain.unitSlope_pos hY hy).le (hC' _ hy)

/-- C136, convergence in three variables, derivative in `z`. -/
theorem C136_converges_3d_z (B : Build) {F : ℝ → ℝ → ℝ → ℝ} {X Y Z : Domain ℝ} (hX : X.Usual) (hY : Y.Usual) (hZ : Z.Usual) {a : ℕ × ℕ × ℕ → ℝ}
    (hF : Expansion3 a F X Y Z) (ha : Summable (fun k : ℕ × ℕ × ℕ => |(k.2.2 : ℝ) ^ 2 * a k|)) {ε : ℝ} (hε : 0 < ε) :
    ∃ N, ∀ n m l, N ≤ n → N ≤ m → N ≤ l → ∀ s, Fresh3 F n m l s X Y Z → ∃ s', s.computeAijk B = .ok s' ∧ ∀ x y z, X.Mem x → Y.Mem y → Z.Mem z →
      ∃ v d, s'.evaluateDerivativeZ B x y z = .ok v ∧ HasDerivWithinAt (fun t => F x y t) d {t | Z.Mem t} z ∧ |v - d| ≤ ε := by
  obtain ⟨C, hC, hC'⟩ := Domain.unitSlope_le hZ
  obtain ⟨N, hN⟩ := tail_small ha (good := fun (n : Nat) (k : ℕ × ℕ × ℕ) => k.1 ≤ n ∧ k.2.1 ≤ n ∧ k.2.2 ≤ n) (fun k => ⟨max k.1 (max k.2.1 k.2.2), fun n h => ⟨(le_max_left _ _).trans h, ((le_max_left _ _).trans (le_max_right _ _)).trans h,
      ((le_max_right _ _).trans (le_max_right _ _)).trans h⟩⟩) (div_pos hε hC)
  refine ⟨N, fun n m l hn hm hl s hs => ?_⟩
  obtain ⟨s', h1, h2⟩ := C136_error_3d_z B hs hX hY hZ hF ha
  refine ⟨s', h1, fun x y z hx hy hz => ?_⟩
  obtain ⟨v, d, h3, h4, h5⟩ := h2 x y z hx hy hz
  refine ⟨v, d, h3, h4, h5.trans ?_⟩
  exact slope_tail ha hC (hN N le_rfl) (fun k hk => ⟨hk.1.trans hn, hk.2.1.trans hm, hk.2.2.trans hl⟩) (Domain.unitSlope_pos hZ hz).le (hC' _ hz)

/-- The rational function of the example of C134 has an expansion with `∑ k² |a_k|` finite, and so the derivatives of its series converge. -/
example (B : Build) : ∃ N, ∀ n, N ≤ n → ∃ s', (CS1.closed (fun x : ℝ => (1 - x / 2) / (5 / 4 - x)) (-1) 1 n).computeAi B = .ok s' ∧ ∀ x, -1 ≤ x ∧ x ≤ 1 →
    ∃ v d, s'.evaluateDerivativeX B x = .ok v ∧ HasDerivWithinAt (fun x : ℝ => (1 - x / 2) / (5 / 4 - x)) d {t | -1 ≤ t ∧ t ≤ 1} x ∧
      |v - d| ≤ 1 / 10 ^ 6 := by
  have hsum : Summable (fun k : ℕ => |(k : ℝ) ^ 2 * (1 / 2 : ℝ) ^ k|) :=
    (summable_pow_mul_geometric_of_norm_lt_one 2 (r := (1 / 2 : ℝ)) (by norm_num)).abs
  obtain ⟨N, hN⟩ := C136_converges_1d B (X := .segment (-1) 1) (show (-1 : ℝ) < 1 by norm_num) expansion_example hsum (ε := 1 / 10 ^ 6) (by norm_num)
  exact ⟨N, fun n hn => hN n hn _ (.closed (-1) 1)⟩

theorem summable_half_sq : Summable (fun k : ℕ => (k : ℝ) ^ 2 * (1 / 2 : ℝ) ^ k) :=
  summable_pow_mul_geometric_of_norm_lt_one 2 (r := (1 / 2 : ℝ)) (by norm_num)

theorem summable_half : Summable (fun k : ℕ => (1 / 2 : ℝ) ^ k) := summable_geometric_of_lt_one (by norm_num) (by norm_num)

example (B : Build) : ∃ N, ∀ n m, N ≤ n → N ≤ m → ∃ s', (CS2.closed (fun x y : ℝ => (1 - x / 2) / (5 / 4 - x) * ((1 - y / 2) / (5 / 4 - y)))
    (-1) 1 (-1) 1 n m).computeAij B = .ok s' ∧ ∀ x y, -1 ≤ x ∧ x ≤ 1 → -1 ≤ y ∧ y ≤ 1 → ∃ v d, s'.evaluateDerivativeY B x y = .ok v ∧
      HasDerivWithinAt (fun t : ℝ => (1 - x / 2) / (5 / 4 - x) * ((1 - t / 2) / (5 / 4 - t))) d {t | -1 ≤ t ∧ t ≤ 1} y ∧ |v - d| ≤ 1 / 10 ^ 6 := by
  have h : (Domain.segment (-1 : ℝ) 1).Usual := show (-1 : ℝ) < 1 by norm_num
  have hs := summable_half.mul_of_nonneg summable_half_sq (fun k => by positivity) (fun k => by positivity)
  obtain ⟨N, hN⟩ := C136_converges_2d_y B h h expansion2_example (hs.abs.congr fun k => by congr 1; ring) (ε := 1 / 10 ^ 6) (by norm_num)
  exact ⟨N, fun n m hn hm => hN n m hn hm _ (.closed (-1) 1 (-1) 1)⟩

example (B : Build) : ∃ N, ∀ n m l, N ≤ n → N ≤ m → N ≤ l → ∃ s', (CS3.closed (fun x y z : ℝ => (1 - x / 2) / (5 / 4 - x) * ((1 - y / 2) / (5 / 4 - y) *
    ((1 - z / 2) / (5 / 4 - z)))) (-1) 1 (-1) 1 (-1) 1 n m l).computeAijk B = .ok s' ∧ ∀ x y z, -1 ≤ x ∧ x ≤ 1 → -1 ≤ y ∧ y ≤ 1 → -1 ≤ z ∧ z ≤ 1 →
      ∃ v d, s'.evaluateDerivativeX B x y z = .ok v ∧ HasDerivWithinAt (fun t : ℝ => (1 - t / 2) / (5 / 4 - t) * ((1 - y / 2) / (5 / 4 - y) *
        ((1 - z / 2) / (5 / 4 - z)))) d {t | -1 ≤ t ∧ t ≤ 1} x ∧ |v - d| ≤ 1 / 10 ^ 6 := by
  have h : (Domain.segment (-1 : ℝ) 1).Usual := show (-1 : ℝ) < 1 by norm_num
  have hs := summable_half_sq.mul_of_nonneg (summable_half.mul_of_nonneg summable_half (fun k => by positivity) (fun k => by positivity))
    (fun k => by positivity) (fun k => by positivity)
  obtain ⟨N, hN⟩ := C136_converges_3d_x B h h h expansion3_example (hs.abs.congr fun k => by congr 1; ring) (ε := 1 / 10 ^ 6) (by norm_num)
  exact ⟨N, fun n m l hn hm hl => hN n m l hn hm hl _ (.closed (-1) 1 (-1) 1 (-1) 1)⟩

end MU
