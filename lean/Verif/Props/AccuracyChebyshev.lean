import Verif.Props.Accuracy

set_option linter.unusedSectionVars false

/-!
# C111, an example in two variables; C112: accuracy of the Chebyshev series
-/

namespace MU
open Spec Finset Polynomial

/-! ## An example for C111 -/

def realGridF : List Nat → ℝ := fun idx => match idx with
  | [i, j] => ([10, 20, 11, 21, 19, 29] : List ℝ).getD (i * 2 + j) 0
  | _ => 0

theorem realGridLoaded : ∃ s, Loaded 2 [[(0 : ℝ), 1, 3], [10, 20]] realGridF s := by
  have hp : ([0, 1, 3] : List ℝ).Pairwise (· < ·) := by norm_num
  have hq : ([10, 20] : List ℝ).Pairwise (· < ·) := by norm_num
  have h1 : RGI.increasing ([0, 1, 3] : List ℝ) = true := (RGI.increasing_iff _).2 hp
  have h2 : RGI.increasing ([10, 20] : List ℝ) = true := (RGI.increasing_iff _).2 hq
  refine ⟨((RGI.addVar 2 ⟨[3, 2], [10, 20, 11, 21, 19, 29]⟩).run (RGI.execAll 2 [.addCoord [0, 1, 3], .addCoord [10, 20]] (RGI.new ℝ 2)).2).2,
    by norm_num, [.addCoord [0, 1, 3], .addCoord [10, 20]],
    (RGI.execAll 2 [.addCoord [0, 1, 3], .addCoord [10, 20]] (RGI.new ℝ 2)).1, (RGI.execAll 2 [.addCoord [0, 1, 3], .addCoord [10, 20]] (RGI.new ℝ 2)).2,
    ⟨[3, 2], [10, 20, 11, 21, 19, 29]⟩, rfl, ?_, ?_, ?_, ⟨?_, ?_⟩, ?_⟩
  · simp [RGI.execAll, RGI.exec, RGI.addCoord, RGI.new, h1, h2, Alive]
  · simp only [acceptedAxes, List.filterMap_cons, axisArg, List.filterMap_nil, List.filter_cons, hp, hq, decide_true, if_true, List.filter_nil]
  · rfl
  · rfl
  · intro idx h
    cases h with
    | @cons i _ is _ hi h =>
      cases h with
      | @cons j _ js _ hj h =>
        cases h
        match i, hi with
        | 0, _ => match j, hj with
          | 0, _ => rfl
          | 1, _ => rfl
        | 1, _ => match j, hj with
          | 0, _ => rfl
          | 1, _ => rfl
        | 2, _ => match j, hj with
          | 0, _ => rfl
          | 1, _ => rfl
  · refine Prod.ext ?_ rfl
    simp [RGI.execAll, RGI.exec, RGI.addCoord, RGI.addVar, RGI.new, h1, h2, RGI.build, RGI.computeLimits, vIdx, NDInterp.new]

/-- `x² + y`. -/
noncomputable def sampleSurface (p : List ℝ) : ℝ := p.getD 0 0 ^ 2 + p.getD 1 0

theorem sampleSurface_bounds : AxisBounds [[(0 : ℝ), 1, 3], [10, 20]] [2, 0] sampleSurface := by
  refine ⟨fun a b _ _ xs _ => ?_, fun a b _ _ t _ _ => ⟨fun a b _ _ xs _ => ?_, fun a b _ _ _ _ _ => trivial⟩⟩
  · refine ⟨fun j t => match j with | 0 => t ^ 2 + xs.getD 0 0 | 1 => 2 * t | _ => 2, fun t _ => by simp [sampleSurface], fun j hj t _ => ?_, fun t _ => by simp⟩
    have : j = 0 ∨ j = 1 := by omega
    rcases this with rfl | rfl
    · simpa using ((hasDerivAt_pow 2 t).add_const (xs.getD 0 0)).hasDerivWithinAt (s := Set.Icc a b)
    · simpa using ((hasDerivAt_id t).const_mul (2 : ℝ)).hasDerivWithinAt (s := Set.Icc a b)
  · refine ⟨fun j u => match j with | 0 => t ^ 2 + u | 1 => 1 | _ => 0, fun u _ => by simp [sampleSurface], fun j hj u _ => ?_, fun t _ => by simp⟩
    have : j = 0 ∨ j = 1 := by omega
    rcases this with rfl | rfl
    · simpa using ((hasDerivAt_id u).const_add (t ^ 2)).hasDerivWithinAt (s := Set.Icc a b)
    · simpa using (hasDerivAt_const u (1 : ℝ)).hasDerivWithinAt (s := Set.Icc a b)

/-- In the cell `[1, 3] × [10, 20]` the bound is `2 · 2² / 8 = 1`. -/
example : ∃ (s : RGI ℝ) (v : ℝ), RGI.interpolate s [2, 15] true = .ok v ∧ |v - (2 ^ 2 + 15)| ≤ 1 := by
  obtain ⟨s, hs⟩ := realGridLoaded
  obtain ⟨v, h1, h2⟩ := C111_multilinear hs (f := sampleSurface) (fun idx p h => by
    cases h with
    | @cons _ _ i _ x _ hi h =>
      cases h with
      | @cons _ _ j _ y _ hj h =>
        cases h
        obtain ⟨hi', rfl⟩ := List.getElem?_eq_some_iff.1 hi
        obtain ⟨hj', rfl⟩ := List.getElem?_eq_some_iff.1 hj
        have hi' : i < 3 := hi'
        have hj' : j < 2 := hj'
        interval_cases i <;> interval_cases j <;> norm_num [realGridF, sampleSurface]) sampleSurface_bounds (cell := [(1, 1, 3), (0, 10, 20)]) (x := [2, 15])
      (.cons rfl rfl (by norm_num) (by norm_num) (.cons rfl rfl (by norm_num) (by norm_num) .nil)) true
  refine ⟨s, v, h1, ?_⟩
  norm_num [cellError, sampleSurface] at h2 ⊢
  exact h2

/-! ## Chebyshev series -/

theorem Domain.unitSet_ordConnected (X : Domain ℝ) : X.unitSet.OrdConnected := by
  cases X with
  | segment a b => exact Set.ordConnected_Icc
  | halfLine a => exact Set.ordConnected_Ico

theorem Domain.unitSet_subset (X : Domain ℝ) : X.unitSet ⊆ Set.Icc (-1) 1 := by
  cases X with
  | segment a b => exact subset_rfl
  | halfLine a => exact Set.Ico_subset_Icc_self

theorem Domain.usual_proper {X : Domain ℝ} (hX : X.Usual) : X.Proper := by
  cases X with
  | segment a b => exact ne_of_lt hX
  | halfLine a => exact ne_of_gt hX

theorem Domain.mem_unit {X : Domain ℝ} (hX : X.Usual) {x : ℝ} (hx : X.Mem x) : X.Defined x ∧ X.unit x ∈ X.unitSet := by
  cases X with
  | segment a b =>
    have hab : a < b := hX
    obtain ⟨h1, h2⟩ := hx
    refine ⟨ne_of_lt hab, ?_, ?_⟩
    · show -1 ≤ (2 * x - a - b) / (b - a)
      rw [le_div_iff₀ (by linarith)]
      linarith
    · show (2 * x - a - b) / (b - a) ≤ 1
      rw [div_le_iff₀ (by linarith)]
      linarith
  | halfLine a =>
    have ha : 0 < a := hX
    have hx : a ≤ x := hx
    have hx0 : 0 < x := by linarith
    refine ⟨ne_of_gt hx0, ?_, ?_⟩
    · show -1 ≤ 1 - 2 * a / x
      have : 2 * a / x ≤ 2 := by rw [div_le_iff₀ hx0]; linarith
      linarith
    · show 1 - 2 * a / x < 1
      have : 0 < 2 * a / x := by positivity
      linarith

theorem domain_interp_error {F : ℝ → ℝ} {X : Domain ℝ} (hX : X.Usual) {n : Nat} {M : ℝ} (hF : DerivBoundOn (n + 1) F X M) {x : ℝ} (hx : X.Mem x) :
    |chebInterp n (fun r => F (X.node n r)) (X.unit x) - F x| ≤ M / (2 ^ n * (n + 1).factorial) := by
  obtain ⟨G, hG, hb⟩ := hF
  have hnode : ∀ r, r ≤ n → X.Mem (X.node n r) := fun r hr => ((C37_nodes hX).1 r hr).1
  rw [hG x hx, chebInterp_congr n (g' := fun r => G (chebNode n r)) (fun r hr => by
    rw [hG _ (hnode r hr), (node_defined (Domain.usual_proper hX) hr).2])]
  refine chebInterp_error n (Domain.unitSet_ordConnected X) (Domain.unitSet_subset X) (fun r hr => ?_) hb (Domain.mem_unit hX hx).2
  rw [← (node_defined (Domain.usual_proper hX) hr).2]
  exact (Domain.mem_unit hX (hnode r hr)).2

/-- C112, one variable: if, as a function of the variable mapped to `[-1, 1]`, `F` has a derivative of order `n + 1` at most `M` in magnitude, the
series of order `n` gives the value of `F` at every point of the domain with an error of at most `M / (2^n (n+1)!)`. -/
theorem C112_error_1d (B : Build) {F : ℝ → ℝ} {n : Nat} {s : CS1 ℝ} {X : Domain ℝ} (hs : Fresh1 F n s X) (hX : X.Usual) {M : ℝ}
    (hF : DerivBoundOn (n + 1) F X M) :
    ∃ s', s.computeAi B = .ok s' ∧ ∀ x, X.Mem x → ∃ v, s'.evaluate B x = .ok v ∧ |v - F x| ≤ M / (2 ^ n * (n + 1).factorial) := by
  obtain ⟨sx, rfl, h⟩ := hs.holds
  obtain ⟨s', h1, h2⟩ := CS1.computeAi_ok B h
  refine ⟨s', h1, fun x hx => ⟨_, CS1.evaluate_ok B h2 (Domain.mem_unit hX hx).1, ?_⟩⟩
  rw [cheb1_next]
  exact domain_interp_error hX hF hx

/-- C112, one variable in a segment `[a, b]`: if the derivative of order `n + 1` of `F` is at most `M` in magnitude on the segment, the error of the
series of order `n` is at most `M ((b - a) / 2)^(n+1) / (2^n (n+1)!)`. -/
theorem C112_error_segment (B : Build) {F : ℝ → ℝ} {n : Nat} {a b : ℝ} (hab : a < b) {M : ℝ} (hF : DerivBound (n + 1) F (Set.Icc a b) M) :
    ∃ s', (CS1.closed F a b n).computeAi B = .ok s' ∧ ∀ x, a ≤ x → x ≤ b → ∃ v, s'.evaluate B x = .ok v ∧
      |v - F x| ≤ M * ((b - a) / 2) ^ (n + 1) / (2 ^ n * (n + 1).factorial) := by
  have hba : 0 < b - a := by linarith
  obtain ⟨d, e0, e1, e2⟩ := hF
  have hmaps : ∀ u ∈ Set.Icc (-1 : ℝ) 1, (a + b) / 2 + (b - a) / 2 * u ∈ Set.Icc a b := by
    rintro u ⟨h1, h2⟩
    constructor <;> nlinarith
  obtain ⟨s', h1, h2⟩ := C112_error_1d B (Fresh1.closed (F := F) (n := n) a b) (X := .segment a b) hab (M := M * ((b - a) / 2) ^ (n + 1))
    ⟨fun u => F ((a + b) / 2 + (b - a) / 2 * u), fun x _ => by
        congr 1
        simp only [Domain.unit]
        field_simp
        ring,
      fun j u => ((b - a) / 2) ^ j * d j ((a + b) / 2 + (b - a) / 2 * u), fun u hu => by
        simp only [pow_zero, one_mul]
        exact e0 _ (hmaps u hu), fun j hj u hu => by
        have hin : HasDerivWithinAt (fun u : ℝ => (a + b) / 2 + (b - a) / 2 * u) ((b - a) / 2) (Set.Icc (-1) 1) u := by
          simpa using (((hasDerivAt_id u).const_mul ((b - a) / 2)).const_add ((a + b) / 2)).hasDerivWithinAt (s := Set.Icc (-1 : ℝ) 1)
        have := ((e1 j hj _ (hmaps u hu)).scomp u hin hmaps).const_mul (((b - a) / 2) ^ j)
        refine (this.congr_deriv ?_)
        rw [smul_eq_mul]
        ring, fun u hu => by
        rw [abs_mul, abs_of_pos (by positivity), mul_comm]
        exact mul_le_mul_of_nonneg_right (e2 _ (hmaps u hu)) (by positivity)⟩
  exact ⟨s', h1, fun x hxa hxb => h2 x ⟨hxa, hxb⟩⟩

/-- C112, two variables: each variable contributes its own error, that of `y` multiplied by at most `2 n + 1`. -/
theorem C112_error_2d (B : Build) {F : ℝ → ℝ → ℝ} {n m : Nat} {s : CS2 ℝ} {X Y : Domain ℝ} (hs : Fresh2 F n m s X Y) (hX : X.Usual) (hY : Y.Usual)
    {Mx My : ℝ} (hFx : ∀ y, Y.Mem y → DerivBoundOn (n + 1) (fun x => F x y) X Mx) (hFy : ∀ x, X.Mem x → DerivBoundOn (m + 1) (fun y => F x y) Y My) :
    ∃ s', s.computeAij B = .ok s' ∧ ∀ x y, X.Mem x → Y.Mem y → ∃ v, s'.evaluate B x y = .ok v ∧
      |v - F x y| ≤ Mx / (2 ^ n * (n + 1).factorial) + (2 * n + 1) * (My / (2 ^ m * (m + 1).factorial)) := by
  obtain ⟨sx, sy, rfl, rfl, h⟩ := hs.holds
  obtain ⟨s', h1, h2⟩ := CS2.computeAij_ok B h
  refine ⟨s', h1, fun x y hx hy => ⟨_, CS2.evaluate_ok B h2 (Domain.mem_unit hX hx).1 (Domain.mem_unit hY hy).1, ?_⟩⟩
  rw [cheb2_next, add_comm]
  have e1 := domain_interp_error hX (hFx y hy) hx
  have e2 := abs_chebInterp_le n (fun r hr => domain_interp_error hY (hFy _ ((C37_nodes hX).1 r hr).1) hy)
    (abs_le.2 (Domain.unitSet_subset _ (Domain.mem_unit hX hx).2))
  rw [← chebInterp_sub] at e2
  exact (abs_sub_le _ _ _).trans (add_le_add e2 e1)

/-- C112, three variables. -/
theorem C112_error_3d (B : Build) {F : ℝ → ℝ → ℝ → ℝ} {n m l : Nat} {s : CS3 ℝ} {X Y Z : Domain ℝ} (hs : Fresh3 F n m l s X Y Z) (hX : X.Usual)
    (hY : Y.Usual) (hZ : Z.Usual) {Mx My Mz : ℝ} (hFx : ∀ y z, Y.Mem y → Z.Mem z → DerivBoundOn (n + 1) (fun x => F x y z) X Mx)
    (hFy : ∀ x z, X.Mem x → Z.Mem z → DerivBoundOn (m + 1) (fun y => F x y z) Y My)
    (hFz : ∀ x y, X.Mem x → Y.Mem y → DerivBoundOn (l + 1) (fun z => F x y z) Z Mz) :
    ∃ s', s.computeAijk B = .ok s' ∧ ∀ x y z, X.Mem x → Y.Mem y → Z.Mem z → ∃ v, s'.evaluate B x y z = .ok v ∧
      |v - F x y z| ≤ Mz / (2 ^ l * (l + 1).factorial) +
        (2 * l + 1) * (Mx / (2 ^ n * (n + 1).factorial) + (2 * n + 1) * (My / (2 ^ m * (m + 1).factorial))) := by
  obtain ⟨sx, sy, sz, rfl, rfl, rfl, h⟩ := hs.holds
  obtain ⟨s', h1, h2⟩ := CS3.computeAijk_ok B h
  refine ⟨s', h1, fun x y z hx hy hz => ⟨_, CS3.evaluate_ok B h2 (Domain.mem_unit hX hx).1 (Domain.mem_unit hY hy).1 (Domain.mem_unit hZ hz).1, ?_⟩⟩
  rw [cheb3_next, add_comm]
  have e1 := domain_interp_error hZ (hFz x y hx hy) hz
  have hin : ∀ t, t ≤ l → |chebInterp n (fun r => chebInterp m (fun q => F (sx.dom.node n r) (sy.dom.node m q) (sz.dom.node l t)) (sy.dom.unit y)) (sx.dom.unit x) -
      F x y (sz.dom.node l t)| ≤ Mx / (2 ^ n * (n + 1).factorial) + (2 * n + 1) * (My / (2 ^ m * (m + 1).factorial)) := by
    intro t ht
    have hzt := ((C37_nodes hZ).1 t ht).1
    rw [add_comm (Mx / _)]
    have f1 := domain_interp_error hX (hFx y _ hy hzt) hx
    have f2 := abs_chebInterp_le n (fun r hr => domain_interp_error hY (hFy _ _ ((C37_nodes hX).1 r hr).1 hzt) hy)
      (abs_le.2 (Domain.unitSet_subset _ (Domain.mem_unit hX hx).2))
    rw [← chebInterp_sub] at f2
    exact (abs_sub_le _ _ _).trans (add_le_add f2 f1)
  have e2 := abs_chebInterp_le l hin (abs_le.2 (Domain.unitSet_subset _ (Domain.mem_unit hZ hz).2))
  rw [← chebInterp_sub] at e2
  exact (abs_sub_le _ _ _).trans (add_le_add e2 e1)

/-- The exponential on `[-1, 1]`, order 5: error at most `e / (2^5 · 6!)`, that is `1.2e-4`. -/
example : ∃ s', (CS1.closed Real.exp (-1) 1 5).computeAi ⟨true⟩ = .ok s' ∧ ∀ x, -1 ≤ x → x ≤ 1 → ∃ v, s'.evaluate ⟨true⟩ x = .ok v ∧
    |v - Real.exp x| ≤ Real.exp 1 * ((1 - -1) / 2) ^ (5 + 1) / (2 ^ 5 * (5 + 1).factorial) :=
  C112_error_segment ⟨true⟩ (by norm_num) (derivBound_exp 6 (fun t ht => ht.2))

/-- `exp(-4/x)` on `[2, +infinity)` is `exp(u - 1)` in the mapped variable. -/
example : ∃ s', (CS1.opened (fun x => Real.exp (-4 / x)) 2 3).computeAi ⟨true⟩ = .ok s' ∧ ∀ x, 2 ≤ x → ∃ v, s'.evaluate ⟨true⟩ x = .ok v ∧
    |v - Real.exp (-4 / x)| ≤ 1 / (2 ^ 3 * (3 + 1).factorial) := by
  refine C112_error_1d ⟨true⟩ (Fresh1.opened 2) (X := .halfLine 2) (by norm_num [Domain.Usual]) ⟨fun u => Real.exp (u - 1), fun x _ => ?_,
    fun _ u => Real.exp (u - 1), fun _ _ => rfl, fun j _ u _ => ?_, fun u hu => ?_⟩
  · simp only [Domain.unit]
    congr 1
    ring
  · have := ((hasDerivAt_id u).sub_const 1).exp
    simpa using this.hasDerivWithinAt
  · rw [abs_of_pos (Real.exp_pos _)]
    have : u < 1 := hu.2
    exact Real.exp_le_one_iff.2 (by linarith)

end MU
