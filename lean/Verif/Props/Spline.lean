import Verif.Lemmas.SplineGlue
import Mathlib.LinearAlgebra.FiniteDimensional.Lemmas

/-!
# C102, C103: Spline

In exact arithmetic. `solve` is Eigen's `HouseholderQR::solve`, of which only `Spec.SolvesRegular` is assumed: it solves the square systems whose
matrix is regular. That the matrix of the interpolation is regular is proved (the Schoenberg–Whitney theorem, Lemmas/SplineTheory.lean).
-/

set_option linter.unusedSectionVars false

namespace MU

open Polynomial SW

/-- What is assumed of Eigen's solver can be done. -/
theorem solvesRegular_exists : ∃ solve, Spec.SolvesRegular solve := by
  have key : ∀ (A : Mat ℝ) (b : List ℝ), ∃ l : List ℝ, A.rows = A.cols → b.length = A.rows → Spec.IsRegular A →
      l.length = A.cols ∧ ∀ i < A.rows, Spec.rowTimes A (fun k => l.getD k 0) i = b.getD i 0 := by
    intro A b
    by_cases h : A.rows = A.cols ∧ Spec.IsRegular A
    · obtain ⟨hsq, hreg⟩ := h
      let f : (Fin A.cols → ℝ) →ₗ[ℝ] (Fin A.cols → ℝ) :=
        { toFun := fun c i => ∑ k : Fin A.cols, A.entry i k * c k
          map_add' := fun c d => by funext i; simp [mul_add, Finset.sum_add_distrib]
          map_smul' := fun a c => by funext i; simp [Finset.mul_sum, mul_left_comm] }
      have hrow : ∀ (c : ℕ → ℝ) (i : Fin A.cols), Spec.rowTimes A c i = f (fun k => c k) i := by
        intro c i
        show _ = ∑ k : Fin A.cols, A.entry i k * c k
        rw [Spec.rowTimes, Finset.sum_range]
      have hinj : Function.Injective f := by
        rw [← LinearMap.ker_eq_bot, LinearMap.ker_eq_bot']
        intro c hc
        have := hreg (fun k => if h : k < A.cols then c ⟨k, h⟩ else 0) (fun i hi => by
          rw [hrow _ ⟨i, by omega⟩]
          simp only [Fin.is_lt, dif_pos, Fin.eta]
          rw [hc]; rfl)
        funext k
        have h2 := this k k.2
        simpa using h2
      obtain ⟨c, hc⟩ := (LinearMap.injective_iff_surjective.mp hinj) (fun i => b.getD i 0)
      refine ⟨List.ofFn c, fun _ _ _ => ⟨by simp, fun i hi => ?_⟩⟩
      rw [hrow _ ⟨i, by omega⟩]
      have : (fun k : Fin A.cols => (List.ofFn c).getD (k : ℕ) 0) = c := by
        funext k
        rw [List.getD_eq_getElem?_getD, List.getElem?_eq_getElem (by simp)]
        simp
      rw [this, hc]
    · exact ⟨[], fun h1 _ h2 => absurd ⟨h1, h2⟩ h⟩
  choose solve h using key
  exact ⟨solve, h⟩

theorem scaled_range {x : List ℝ} (hn : 2 ≤ x.length) (hx : x.Pairwise (· < ·)) {i : ℕ} (hi : i < x.length) :
    0 ≤ scaled x (x.getD i 0) ∧ scaled x (x.getD i 0) ≤ 1 := by
  have h : Increasing x := ⟨hn, hx⟩
  have hp := h.params (Deg := 1) one_pos
  have hget : (x.map (scaled x)).getD i 0 = scaled x (x.getD i 0) := by
    rw [List.getD_eq_getElem?_getD, List.getElem?_map, List.getElem?_eq_getElem hi, getD_eq hi]; rfl
  rw [← hget]
  exact ⟨hp.zero_le (by simpa using hi), hp.le_one (by simpa using hi)⟩

section
variable {solve : Mat ℝ → List ℝ → List ℝ} (hsol : Spec.SolvesRegular solve) (B : Build) {Deg : ℕ} (hD : 0 < Deg) {x y : List ℝ}
  (hn : 2 ≤ x.length) (hx : x.Pairwise (· < ·)) (hy : y.length = x.length)
include hsol hD hn hx hy

/-- C102: on strictly increasing abscissas the spline can be built and evaluated everywhere, whatever the degree asked for, and it passes
through every point. -/
theorem C102_interpolates : ∃ s, Spline.make solve B Deg x y = .ok s ∧ (∀ a, ∃ v, Spline.call B s a = .ok v) ∧
    ∀ i (hi : i < x.length), Spline.call B s x[i] = .ok (y[i]'(by omega)) := by
  have h : Increasing x := ⟨hn, hx⟩
  obtain ⟨m, ξ, hm, hξ, h0, h1, _, _, hmake⟩ := h.make_ok hD B hsol
  obtain ⟨s, P, s1, s2, s3, s4⟩ := hmake y hy
  refine ⟨s, s1, fun a => ?_, fun i hi => ?_⟩
  · obtain ⟨j, _, _, hc⟩ := s4 a
    exact ⟨_, hc⟩
  · obtain ⟨j, hj, hl, hc⟩ := s4 x[i]
    have hr := scaled_range hn hx hi
    rw [getD_eq hi] at hr
    rw [hc]
    congr 1
    have hin : In ξ j (scaled x x[i]) := by
      rcases hl with hl | ⟨hl, _⟩ | ⟨hl, _⟩
      · exact hl
      · rw [h0] at hl; linarith [hr.1]
      · rw [h1] at hl; linarith [hr.2]
    have := s3 i hi j hj (by rw [getD_eq hi]; exact hin)
    rw [getD_eq hi, getD_eq (by omega)] at this
    exact this

omit hsol hD hn hx hy in
/-- The two constructors build the same object. -/
theorem C102_constructors : Spline.makeStd solve B Deg x y = Spline.make solve B Deg x y := by
  unfold Spline.makeStd
  cases Spline.make solve B Deg x y <;> rfl

/-- C103: the spline is a function with `p - 1` continuous derivatives, `p` being the degree asked for, or the number of points less one when this
is smaller. -/
theorem C103_smooth : ∃ (s : Spline) (f : ℝ → ℝ), Spline.make solve B Deg x y = .ok s ∧ (∀ a, Spline.call B s a = .ok (f a)) ∧
    ContDiff ℝ (min (x.length - 1) Deg - 1 : ℕ) f := by
  have h : Increasing x := ⟨hn, hx⟩
  obtain ⟨m, ξ, hm, hξ, h0, h1, _, _, hmake⟩ := h.make_ok hD B hsol
  obtain ⟨s, P, s1, s2, s3, s4⟩ := hmake y hy
  obtain ⟨g, hg⟩ := exists_glue (ξ := ξ) hm P
  have hj := s2.joined 0 (by omega)
  refine ⟨s, fun a => g (scaled x a), s1, fun a => ?_, ?_⟩
  · obtain ⟨j, hj', hl, hc⟩ := s4 a
    rw [hc]
    exact congrArg Res.ok (hg.eq hξ hj hj' (hl.ext hξ hj')).symm
  · refine ContDiff.comp (g := g) (f := scaled x) (Glue.contDiff hm hξ s2 _ 0 g (by omega) hg) ?_
    unfold scaled
    exact (contDiff_id.sub contDiff_const).div_const _

/-- C103: it is a polynomial of degree at most `p` between any two neighbouring points of a finite list: the first and the last
abscissa and, between them, the means of `p` consecutive abscissas. -/
theorem C103_pieces : ∃ (s : Spline) (m : ℕ) (b : ℕ → ℝ) (P : ℕ → ℝ[X]), Spline.make solve B Deg x y = .ok s ∧
    m + min (x.length - 1) Deg = x.length ∧ b 0 = x[0] ∧ b m = x[x.length - 1] ∧ (∀ j < m, b j < b (j + 1)) ∧
    (∀ j, 0 < j → j < m → b j = (∑ r ∈ Finset.range (min (x.length - 1) Deg), x.getD (j + r) 0) / (min (x.length - 1) Deg : ℕ)) ∧
    ∀ j < m, (P j).natDegree ≤ min (x.length - 1) Deg ∧
      ∀ a, (j = 0 ∨ b j ≤ a) → (j + 1 = m ∨ a ≤ b (j + 1)) → Spline.call B s a = .ok ((P j).eval a) := by
  have h : Increasing x := ⟨hn, hx⟩
  obtain ⟨m, ξ, hm, hξ, h0, h1, hmn, _, hmake⟩ := h.make_ok hD B hsol
  obtain ⟨s, P, s1, s2, s3, s4⟩ := hmake y hy
  have hr := h.range_pos
  set d := x.getD (x.length - 1) 0 - x.getD 0 0 with hd
  have hjn := s2.joined 0 (by omega)
  refine ⟨s, m, fun j => x.getD 0 0 + d * ξ j, fun j => (P j).comp (C d⁻¹ * (X - C (x.getD 0 0))), s1, hmn.1, ?_, ?_, ?_, ?_, ?_⟩
  · simp only [h0, mul_zero, add_zero]
    exact getD_eq _ _
  · simp only [h1, mul_one, hd]
    rw [getD_eq (by omega : x.length - 1 < x.length)]
    ring
  · intro j hj
    have := mul_lt_mul_of_pos_left (hξ j hj) hr
    linarith
  · intro j hj hjm
    have hp : ((min (x.length - 1) Deg : ℕ) : ℝ) ≠ 0 := Nat.cast_ne_zero.2 (by omega)
    simp only [hmn.2 j hj hjm, scaled, ← hd]
    rw [← Finset.sum_div, Finset.sum_sub_distrib, Finset.sum_const, Finset.card_range, nsmul_eq_mul]
    field_simp
    ring
  · intro j hj
    constructor
    · refine natDegree_comp_le.trans ?_
      have e1 : (C d⁻¹ * (X - C (x.getD 0 0))).natDegree ≤ 1 := (natDegree_C_mul_le _ _).trans (natDegree_X_sub_C_le _)
      have e2 := s2.degree j hj
      nlinarith
    · intro a ha1 ha2
      obtain ⟨k, hk, hl, hc⟩ := s4 a
      have hs : a = x.getD 0 0 + d * scaled x a := by
        unfold scaled
        rw [← hd]
        field_simp
        ring
      have hsc : d⁻¹ * (a - x.getD 0 0) = scaled x a := by unfold scaled; rw [← hd]; ring
      rw [hc]
      congr 1
      rw [eval_comp, eval_mul, eval_C, eval_sub, eval_X, eval_C, hsc]
      refine Ext.unique hξ hjn hk hj (hl.ext hξ hk) ⟨ha1.imp_right (fun h => ?_), ha2.imp_right (fun h => ?_)⟩
      · rw [hs] at h
        exact le_of_mul_le_mul_left (by linarith) hr
      · rw [hs] at h
        exact le_of_mul_le_mul_left (by linarith) hr

omit hy in
/-- C103: points on a polynomial of degree at most `p` give back this polynomial, everywhere, also outside the abscissas. -/
theorem C103_polynomial {q : ℝ[X]} (hq : q.natDegree ≤ min (x.length - 1) Deg) :
    ∃ s, Spline.make solve B Deg x (x.map (fun a => q.eval a)) = .ok s ∧ ∀ a, Spline.call B s a = .ok (q.eval a) := by
  have h : Increasing x := ⟨hn, hx⟩
  obtain ⟨m, ξ, hm, hξ, h0, h1, _, huniq, hmake⟩ := h.make_ok hD B hsol
  obtain ⟨s, P, s1, s2, s3, s4⟩ := hmake (x.map (fun a => q.eval a)) (by simp)
  have hr := h.range_pos
  set d := x.getD (x.length - 1) 0 - x.getD 0 0 with hd
  set R : ℝ[X] := q.comp (C d * X + C (x.getD 0 0)) with hR
  have hRdeg : R.natDegree ≤ min (x.length - 1) Deg := by
    refine natDegree_comp_le.trans ?_
    have e1 : (C d * X + C (x.getD 0 0)).natDegree ≤ 1 := natDegree_linear_le
    nlinarith
  have hRe : ∀ a, R.eval (scaled x a) = q.eval a := by
    intro a
    rw [hR, eval_comp]
    congr 1
    simp only [eval_add, eval_mul, eval_C, eval_X, scaled]
    rw [← hd]
    field_simp
    ring
  have hz := huniq (fun j => C 1 * P j + C (-1) * R) (s2.comb (Smooth.const hRdeg) 1 (-1)) (fun i hi k hk hin => by
    have e := s3 i hi k hk hin
    have e2 : (x.map (fun a => q.eval a)).getD i 0 = q.eval (x.getD i 0) := by
      rw [List.getD_eq_getElem?_getD, List.getElem?_map, List.getElem?_eq_getElem hi, getD_eq hi]; rfl
    simp only [eval_add, eval_mul, eval_C, e, e2, hRe]
    ring)
  refine ⟨s, s1, fun a => ?_⟩
  obtain ⟨j, hj, _, hc⟩ := s4 a
  have : P j = R := by
    have := hz j hj
    simp only [C_1, one_mul, C_neg, neg_mul] at this
    rw [← sub_eq_add_neg, sub_eq_zero] at this
    exact this
  rw [hc, this, hRe]

/-- C103: the spline depends linearly on the ordinates. -/
theorem C103_linear {z : List ℝ} (hz : z.length = x.length) (α β : ℝ) :
    ∃ s1 s2 s3, Spline.make solve B Deg x y = .ok s1 ∧ Spline.make solve B Deg x z = .ok s2 ∧
      Spline.make solve B Deg x (List.zipWith (fun u v => α * u + β * v) y z) = .ok s3 ∧
      ∀ a, ∃ v1 v2, Spline.call B s1 a = .ok v1 ∧ Spline.call B s2 a = .ok v2 ∧ Spline.call B s3 a = .ok (α * v1 + β * v2) := by
  have h : Increasing x := ⟨hn, hx⟩
  obtain ⟨m, ξ, hm, hξ, h0, h1, _, huniq, hmake⟩ := h.make_ok hD B hsol
  obtain ⟨s, P, a1, a2, a3, a4⟩ := hmake y hy
  obtain ⟨t, Q, b1, b2, b3, b4⟩ := hmake z hz
  obtain ⟨w, R, c1, c2, c3, c4⟩ := hmake (List.zipWith (fun u v => α * u + β * v) y z) (by simp [hy, hz])
  refine ⟨s, t, w, a1, b1, c1, fun a => ?_⟩
  obtain ⟨j, hj, jl, je⟩ := a4 a
  obtain ⟨k, hk, kl, ke⟩ := b4 a
  obtain ⟨l, hl, ll, le⟩ := c4 a
  refine ⟨_, _, je, ke, ?_⟩
  have hzz := huniq (fun j => C 1 * (C α * P j + C β * Q j) + C (-1) * R j) ((a2.comb b2 α β).comb c2 1 (-1))
    (fun i hi k hk hin => by
      have e : (List.zipWith (fun u v => α * u + β * v) y z).getD i 0 = α * y.getD i 0 + β * z.getD i 0 := by
        rw [getD_eq (by simp; omega), getD_eq (by omega), getD_eq (by omega), List.getElem_zipWith]
      simp only [eval_add, eval_mul, eval_C, a3 i hi k hk hin, b3 i hi k hk hin, c3 i hi k hk hin, e]
      ring)
  have hR : R l = C α * P l + C β * Q l := by
    have := hzz l hl
    simp only [C_1, one_mul, C_neg, neg_mul] at this
    rw [← sub_eq_add_neg, sub_eq_zero] at this
    exact this.symm
  rw [le, hR]
  congr 1
  simp only [eval_add, eval_mul, eval_C]
  have ja : Joined ξ m P := a2.joined 0 (by omega)
  have jb : Joined ξ m Q := b2.joined 0 (by omega)
  rw [Ext.unique hξ ja hl hj (ll.ext hξ hl) (jl.ext hξ hj), Ext.unique hξ jb hl hk (ll.ext hξ hl) (kl.ext hξ hk)]

omit hsol hD hy in
/-- C103: a change of unit and of origin of the abscissas changes nothing else. -/
theorem C103_rescale {k c : ℝ} (hk : 0 < k) {s : Spline} (hs : Spline.make solve B Deg x y = .ok s) :
    ∃ s', Spline.make solve B Deg (x.map (fun a => k * a + c)) y = .ok s' ∧
      ∀ a, Spline.call B s' (k * a + c) = Spline.call B s a := by
  have h : Increasing x := ⟨hn, hx⟩
  have h' : Increasing (x.map (fun a => k * a + c)) := by
    refine ⟨by simpa using hn, ?_⟩
    rw [List.pairwise_map]
    exact hx.imp (fun {a b} hab => by nlinarith)
  have hget : ∀ i, i < x.length → (x.map (fun a => k * a + c)).getD i 0 = k * x.getD i 0 + c := by
    intro i hi
    rw [List.getD_eq_getElem?_getD, List.getElem?_map, List.getElem?_eq_getElem hi, getD_eq hi]; rfl
  have hsc : ∀ a, scaled (x.map (fun a => k * a + c)) (k * a + c) = scaled x a := by
    intro a
    have hr := h.range_pos
    unfold scaled
    rw [List.length_map, hget _ (by omega), hget _ (by omega)]
    generalize x.getD (x.length - 1) 0 = p at *
    generalize x.getD 0 0 = q at *
    rw [show k * a + c - (k * q + c) = k * (a - q) by ring, show k * p + c - (k * q + c) = k * (p - q) by ring,
      mul_div_mul_left _ _ hk.ne']
  have hmake : ∀ {w : List ℝ}, Increasing w → Spline.make solve B Deg w y =
      (ESpline.interpolate solve B y (min (w.length - 1) Deg) (w.map (scaled w))).bind
        (fun s => .ok ⟨w.getD 0 0, w.getD (w.length - 1) 0, s⟩) := by
    intro w hw
    unfold Spline.make scaledValues
    rw [hw.minC, Res.ok_bind, hw.maxC, Res.ok_bind, mapM_ok' _ (scaled w) w (fun a _ => hw.scaled_ok a), Res.ok_bind]
    rfl
  have hmap : (x.map (fun a => k * a + c)).map (scaled (x.map (fun a => k * a + c))) = x.map (scaled x) := by
    rw [List.map_map]
    exact List.map_congr_left (fun a _ => hsc a)
  rw [hmake h] at hs
  rw [hmake h', hmap, List.length_map]
  cases hE : ESpline.interpolate solve B y (min (x.length - 1) Deg) (x.map (scaled x)) with
  | ok E =>
    rw [hE] at hs
    have hs : s = ⟨x.getD 0 0, x.getD (x.length - 1) 0, E⟩ := by
      have : (Res.ok (⟨x.getD 0 0, x.getD (x.length - 1) 0, E⟩ : Spline)) = .ok s := hs
      cases this; rfl
    refine ⟨_, rfl, fun a => ?_⟩
    unfold Spline.call
    rw [hs]
    simp only
    have e := h'.scaled_ok (k * a + c)
    rw [List.length_map] at e
    rw [e, h.scaled_ok, hsc]
  | _ => rw [hE] at hs; cases hs

end

/-- The points have to be given by increasing abscissas: the spline through (1, a) and (0, b) is not refused and takes the value `a` at 0. -/
theorem C102_unsorted {solve : Mat ℝ → List ℝ → List ℝ} (hsol : Spec.SolvesRegular solve) (B : Build) {Deg : ℕ} (hD : 0 < Deg) (a b : ℝ) :
    ∃ s, Spline.make solve B Deg [1, 0] [a, b] = .ok s ∧ Spline.call B s 0 = .ok a ∧ Spline.call B s 1 = .ok b := by
  have heq : Spline.make solve B Deg [1, 0] [a, b] = Spline.make solve B Deg [0, 1] [a, b] := by
    have hD1 : min 1 Deg = 1 := by omega
    unfold Spline.make scaledValues
    simp [minCoeff, maxCoeff, scaledValue, fdiv, ESpline.interpolate, collocation, knotAveraging, forRange, forN, hD1]
  rw [heq]
  obtain ⟨s, h1, _, h2⟩ := C102_interpolates hsol B hD (x := [0, 1]) (y := [a, b]) (by simp) (by simp) (by simp)
  exact ⟨s, h1, h2 0 (by simp), h2 1 (by simp)⟩

/-- No points: refused in a build with assertions. A single abscissa, or equal ones: no finite result. -/
theorem C102_degenerate (solve : Mat ℝ → List ℝ → List ℝ) (Deg : ℕ) (y : List ℝ) :
    Spline.make solve ⟨true⟩ Deg [] y = .aborts ∧
    ∀ (B : Build) (n : ℕ) (a : ℝ), Spline.make solve B Deg (List.replicate (n + 1) a) y = .nonfinite := by
  refine ⟨rfl, fun B n a => ?_⟩
  have h1 : ∀ n, (List.replicate n a).foldl min a = a := fun n => by
    induction n with
    | zero => rfl
    | succ n ih => rw [List.replicate_succ, List.foldl_cons, min_self, ih]
  have h2 : ∀ n, (List.replicate n a).foldl max a = a := fun n => by
    induction n with
    | zero => rfl
    | succ n ih => rw [List.replicate_succ, List.foldl_cons, max_self, ih]
  unfold Spline.make scaledValues
  rw [List.replicate_succ, minCoeff, h1, Res.ok_bind, maxCoeff, h2, Res.ok_bind, List.mapM_cons, scaledValue, fdiv, sub_self, if_pos rfl]
  rfl

/-- A concrete case: a cubic spline through five points, the cube of the abscissa. -/
example : ∃ solve, Spec.SolvesRegular solve ∧ ∃ s, Spline.make solve ⟨true⟩ 3 [0, 1, 3, 4, 7] [0, 1, 27, 64, 343] = .ok s ∧
    Spline.call ⟨true⟩ s 3 = .ok 27 ∧ Spline.call ⟨true⟩ s 2 = .ok 8 := by
  obtain ⟨solve, hs⟩ := solvesRegular_exists
  refine ⟨solve, hs, ?_⟩
  obtain ⟨s, h1, h2⟩ := C103_polynomial hs ⟨true⟩ (Deg := 3) (by norm_num) (x := [0, 1, 3, 4, 7]) (by simp) (by norm_num [List.pairwise_cons])
    (q := X ^ 3) (by simp)
  refine ⟨s, ?_, ?_, ?_⟩
  · rw [← h1]; norm_num
  · rw [h2]; norm_num
  · rw [h2]; norm_num

end MU
