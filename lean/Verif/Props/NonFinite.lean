import Verif.Lemmas.NonFinite
import Verif.Props.RegularGrid
import Verif.Props.Nearest

/-!
# C114, C115: coordinates that are infinite or not a number

C114 and C115, full statement: asked at a NaN coordinate an interpolator returns NaN or fails, it never returns a number; an infinite coordinate is out of
range. C114: true of the interpolators of one and two variables. C115: false of `RegularGridInterpolator`: NaN passes the bound check and is treated as
the last node of its axis. False of `RegularGridNearest`, which for NaN reads behind the end of an axis.
-/

set_option linter.unusedSectionVars false

namespace MU

open MU.Spec Dbl Interp1d

variable {K : Type} [Field K] [LinearOrder K] [IsStrictOrderedRing K]

/-- What the client program computes, for a table. -/
theorem interp1dD_eq (B : Build) {m : InterpMethod} {kind : Interp1dKind} (hm : make m = .ok kind) {xs ys : List K} (ht : Table xs ys) (x : Dbl K) :
    interp1dD B m xs ys x = evalD kind (built (fresh K K) xs ys (by have := ht.two; omega) (xs.length - 1)) x := by
  simp only [interp1dD, hm, Res.ok_bind, run_init B (show 0 < xs.length by have := ht.two; omega) ht.sizes ht.increasing]

/-- On a table, `PrivEval` of the base class at a value that compares with all numbers in the same way. -/
theorem privEvalBaseD_const {xs ys : List K} (ht : Table xs ys) {x : Dbl K} (c : Bool) (h : ∀ a, lt (num a) x = c) :
    privEvalBaseD (built (fresh K K) xs ys (by have := ht.two; omega) (xs.length - 1)) x =
      if c then .throws .outOfRange else .ok (add (mul (num (slope xs ys 0)) x) (num (icept xs ys 0))) := by
  have h2 := ht.two
  cases c
  · simp [privEvalBaseD, built, lowerBound_const xs false h, Interp1d.fresh, vAt, show 0 < xs.length - 1 by omega]
  · simp [privEvalBaseD, built, lowerBound_const xs true h, Interp1d.fresh, vAt, show ¬ xs.length = 0 by omega]

/-- C114: at NaN every interpolator of one variable returns NaN. -/
theorem C114_interp1d_nan (B : Build) {m : InterpMethod} (hm : m ≠ .BSPLINE) {xs ys : List K} (ht : Table xs ys) :
    interp1dD B m xs ys nan = .ok nan := by
  obtain ⟨kind, hk⟩ := make_ok hm
  rw [interp1dD_eq B hk ht]
  have h := privEvalBaseD_const ht (x := nan) false (fun _ => rfl)
  have e : add (mul (num (slope xs ys 0)) nan) (num (icept xs ys 0)) = nan := rfl
  cases kind <;> simpa [evalD, built, Dbl.lt, e] using h

example (B : Build) : interp1dD B .LINEAR [0, 1, 3] [5, 7, (1 : ℚ)] nan = .ok nan :=
  C114_interp1d_nan B (by simp) ⟨by simp, by simp [show (1 : ℚ) < 3 by norm_num], rfl⟩

/-- C114: an infinite coordinate is out of the range of a LINEAR interpolator, which ends the program. -/
theorem C114_linear_infinite (B : Build) {xs ys : List K} (ht : Table xs ys) :
    interp1dD B .LINEAR xs ys pinf = .exits 1 ∧ interp1dD B .LINEAR xs ys ninf = .exits 1 := by
  constructor <;> rw [interp1dD_eq B rfl ht] <;> simp [evalD, built, Dbl.lt]

/-- C114: LINEAR_SATURATE returns the last ordinate at plus infinity, the first one at minus infinity. -/
theorem C114_saturate_infinite (B : Build) {xs ys : List K} (ht : Table xs ys) :
    interp1dD B .LINEAR_SATURATE xs ys pinf = .ok (num (ys[ys.length - 1]'(by have := ht.two; have := ht.sizes; omega))) ∧
    interp1dD B .LINEAR_SATURATE xs ys ninf = .ok (num (ys[0]'(by have := ht.two; have := ht.sizes; omega))) := by
  have h2 := ht.two
  have hs := ht.sizes
  have hd : ∀ j (hj : j + 1 < xs.length), xs[j + 1] - xs[j] ≠ 0 := fun j hj =>
    sub_ne_zero.mpr (ne_of_gt (getElem_lt_of_pairwise ht.increasing (Nat.lt_succ_self j) hj))
  constructor
  · rw [interp1dD_eq B rfl ht]
    have e : evalD .saturate (built (fresh K K) xs ys (by omega) (xs.length - 1)) pinf =
        privEvalBaseD (built (fresh K K) xs ys (by omega) (xs.length - 1)) (num xs[xs.length - 1]) := by
      simp [evalD, Dbl.lt, built]
    rw [e, privEvalBaseD_num, privEvalBase_range ht _ rfl rfl (by omega) (i := xs.length - 2) (by omega)
      (getElem_le_of_pairwise ht.increasing (by omega) (by omega)) (getElem_le_of_pairwise ht.increasing (by omega) (by omega)), Res.map_ok]
    congr 2
    have e2 : xs.length - 2 + 1 = xs.length - 1 := by omega
    have := hd (xs.length - 2) (by omega)
    simp only [e2] at this ⊢
    rw [line_right this]
    congr 1
    omega
  · rw [interp1dD_eq B rfl ht]
    have e : evalD .saturate (built (fresh K K) xs ys (by omega) (xs.length - 1)) ninf =
        privEvalBaseD (built (fresh K K) xs ys (by omega) (xs.length - 1)) (num xs[0]) := by
      simp [evalD, Dbl.lt, built]
    rw [e, privEvalBaseD_num, privEvalBase_range ht _ rfl rfl (by omega) (i := 0) (by omega)
      (le_refl _) (getElem_le_of_pairwise ht.increasing (by omega) (by omega)), Res.map_ok, line_left]

/-- C114: LINEAR_EXTRAPOLATE never returns a number at an infinite coordinate (at plus infinity it throws, as at any point above the table). -/
theorem C114_extrapolate_infinite (B : Build) {xs ys : List K} (ht : Table xs ys) (v : K) :
    interp1dD B .LINEAR_EXTRAPOLATE xs ys pinf = .throws .outOfRange ∧ interp1dD B .LINEAR_EXTRAPOLATE xs ys ninf ≠ .ok (num v) := by
  constructor
  · rw [interp1dD_eq B rfl ht]
    simpa [evalD] using privEvalBaseD_const ht (x := pinf) true (fun _ => rfl)
  · rw [interp1dD_eq B rfl ht]
    have h := privEvalBaseD_const ht (x := ninf) false (fun _ => rfl)
    simp only [evalD, h, Bool.false_eq_true, if_false]
    intro hc
    exact add_notFinite (.inl (mul_notFinite (.inr (by intro w hw; cases hw)))) v (Res.ok.inj hc)

example (B : Build) : interp1dD B .LINEAR [0, 1, 3] [5, 7, (1 : ℚ)] pinf = .exits 1 ∧
    interp1dD B .LINEAR_SATURATE [0, 1, 3] [5, 7, (1 : ℚ)] pinf = .ok (num 1) ∧
    interp1dD B .LINEAR_SATURATE [0, 1, 3] [5, 7, (1 : ℚ)] ninf = .ok (num 5) :=
  have ht : Table [(0 : ℚ), 1, 3] [5, 7, (1 : ℚ)] := ⟨by simp, by simp [show (1 : ℚ) < 3 by norm_num], rfl⟩
  ⟨(C114_linear_infinite B ht).1, (C114_saturate_infinite B ht).1, (C114_saturate_infinite B ht).2⟩

/-- What the client program computes, for a grid of two variables. -/
theorem interp2dD_eq (B : Build) {xs ys d : List K} (g : Grid xs ys d) (x y : Dbl K) :
    interp2dD B .LINEAR xs ys d x y =
      Interp2d.evalD B (Interp2d.built (Interp2d.fresh K) xs ys d (by have := g.twox; omega) (by have := g.twoy; omega)
        ((xs.length - 1) * (ys.length - 1))) x y := by
  simp only [interp2dD, Interp2d.make, Res.ok_bind,
    Interp2d.run_init B (show 0 < xs.length by have := g.twox; omega) (show 0 < ys.length by have := g.twoy; omega) g.incx g.incy g.size]

/-- C114: when a coordinate is infinite or NaN the assertions of the interpolator of two variables fail. -/
theorem C114_interp2d_checked {xs ys d : List K} (g : Grid xs ys d) {x y : Dbl K} (h : NotFinite x ∨ NotFinite y) :
    interp2dD ⟨true⟩ .LINEAR xs ys d x y = .aborts := by
  have key : ∀ z : Dbl K, NotFinite z → ∀ a b : K, ¬ (le (num a) z = true ∧ le z (num b) = true) := by
    intro z hz a b
    cases z with
    | num v => exact absurd rfl (hz v)
    | _ => simp [Dbl.le]
  rw [interp2dD_eq _ g, Interp2d.evalD]
  have h2 : Interp2d.evalAssertsD ⟨true⟩ (Interp2d.built (Interp2d.fresh K) xs ys d (by have := g.twox; omega) (by have := g.twoy; omega)
      ((xs.length - 1) * (ys.length - 1))) x y = .aborts := by
    simp only [Interp2d.evalAssertsD, Interp2d.built, readVar_some, Res.ok_bind, if_true]
    by_cases hx : le (num (xs[0]'(by have := g.twox; omega))) x = true ∧ le x (num (xs[xs.length - 1]'(by have := g.twox; omega))) = true
    · rw [cassert_true _ _ hx, Res.ok_bind, cassert_false]
      exact h.elim (fun hn => absurd hx (key x hn _ _)) (fun hn => key y hn _ _)
    · rw [cassert_false _ hx, Res.aborts_bind]
  rw [h2, Res.aborts_bind]

/-- C114: without assertions, it never returns a number when a coordinate is infinite or NaN. -/
theorem C114_interp2d_ndebug {xs ys d : List K} (g : Grid xs ys d) {x y : Dbl K} (h : NotFinite x ∨ NotFinite y) (v : K) :
    interp2dD ⟨false⟩ .LINEAR xs ys d x y ≠ .ok (num v) := by
  rw [interp2dD_eq _ g]
  intro hc
  simp only [Interp2d.evalD, Res.bind_eq_ok, Res.pure_eq] at hc
  obtain ⟨_, _, _, _, _, _, _, _, _, _, a1, _, a2, _, a3, _, a4, _, hc⟩ := hc
  refine (add_notFinite (x := add (add (num a1) (mul (num a2) x)) (mul (num a3) y)) (y := mul (mul (num a4) x) y) (.inr ?_)) v (Res.ok.inj hc)
  exact mul_notFinite (h.imp (fun hx => mul_notFinite (.inr hx)) id)

/-- C114: without assertions, it returns NaN when the two coordinates are NaN. -/
theorem C114_interp2d_nan {xs ys d : List K} (g : Grid xs ys d) : interp2dD ⟨false⟩ .LINEAR xs ys d nan nan = .ok nan := by
  have h1 := g.twox
  have h2 := g.twoy
  have hn : 0 < (xs.length - 1) * (ys.length - 1) := Nat.mul_pos (by omega) (by omega)
  rw [interp2dD_eq _ g]
  simp only [Interp2d.evalD, Interp2d.evalAssertsD, Interp2d.built, deref_some, Res.ok_bind, lowerBound_const xs (x := nan) false (fun _ => rfl),
    lowerBound_const ys (x := nan) false (fun _ => rfl), Interp2d.fresh]
  simp [vAt, hn, mul, add]

example : interp2dD ⟨true⟩ .LINEAR [0, 1] [0, 2] [1, 2, 3, (4 : ℚ)] (num (1 / 2)) nan = .aborts ∧
    ∀ v, interp2dD ⟨false⟩ .LINEAR [0, 1] [0, 2] [1, 2, 3, (4 : ℚ)] (num (1 / 2)) nan ≠ .ok (num v) :=
  have g : Grid [0, 1] [0, 2] [1, 2, 3, (4 : ℚ)] := ⟨by simp, by simp, by simp, by simp, rfl⟩
  ⟨C114_interp2d_checked g (.inr (by intro v hv; cases hv)), C114_interp2d_ndebug g (.inr (by intro v hv; cases hv))⟩

/-! ## Regular grids -/

namespace RGI

theorem interpolateD_loaded {dim : Nat} {grids : List (List K)} {F : List Nat → K} {s : RGI K} (h : Loaded dim grids F s)
    (x : List (Dbl K)) : interpolateD s x false = NDInterp.interpMultilinearD ⟨grids, s.data.elems⟩ x := by
  obtain ⟨_, _, _, _, _, hi, _⟩ := Loaded.fields h
  simp [interpolateD, hi]

end RGI

open RGI

/-- What `Interp` without bound check returns at any point, finite or not: the value at the point in which minus infinity is replaced by the
first node of the axis and plus infinity and NaN by the last one. In particular NaN is not reported. -/
theorem C115_grid_any_point {dim : Nat} {grids : List (List K)} {F : List Nat → K} {s : RGI K} (h : Loaded dim grids F s)
    {x : List (Dbl K)} {x' : List K} (hx : Replaced grids x x') :
    ∃ y, interpolateD s x false = .ok (num y) ∧ interpolate s x' false = .ok y := by
  obtain ⟨hg, hd, _, hF, _⟩ := Loaded.fields h
  obtain ⟨c, y, h1, h2, h3, h4, h5⟩ := NDInterp.replaced_alike hg.nonempty hg.increasing hx
  obtain ⟨v, e1, e2⟩ := C17_clamping h h4
  obtain ⟨v', e3, e4⟩ := C17_clamping h h5
  refine ⟨v, ?_, ?_⟩
  · rw [interpolateD_loaded h, NDInterp.interpMultilinearD_alike _ h1 h2, ← interpolate_loaded h, e1, Res.map_ok]
  · rw [e3, ← e4, e2]

/-- With the bound check `Interp` throws exactly when a coordinate is infinite or a number out of range: NaN passes. Otherwise it returns
what it returns without the check. -/
theorem C115_bound_check_partial {dim : Nat} {grids : List (List K)} {F : List Nat → K} {s : RGI K} (h : Loaded dim grids F s)
    {x : List (Dbl K)} (hx : x.length = dim) :
    (interpolateD s x true = .throws .runtimeError ↔ ¬ InBoxOrNaN grids x) ∧
    (InBoxOrNaN grids x → ∃ y, interpolateD s x true = .ok (num y) ∧ interpolateD s x false = .ok (num y)) := by
  obtain ⟨hg, hd, _, _, _, hi, l, hl, hL⟩ := Loaded.fields h
  obtain ⟨h1, h2⟩ := RGI.boundCheckD_eq hL (x := x) (by omega)
  have e1 : InBoxOrNaN grids x → interpolateD s x true = interpolateD s x false := fun hb => by simp [interpolateD, hl, h1 hb]
  have e2 : ¬ InBoxOrNaN grids x → interpolateD s x true = .throws .runtimeError := fun hb => by simp [interpolateD, hl, h2 hb]
  obtain ⟨x', hx'⟩ := exists_replaced hg.nonempty (x := x) (by omega)
  obtain ⟨y, hy, _⟩ := C115_grid_any_point h hx'
  refine ⟨⟨fun ht hb => ?_, e2⟩, fun hb => ⟨y, by rw [e1 hb, hy], hy⟩⟩
  rw [e1 hb, hy] at ht; cases ht

/-- C115, infinite coordinates: the bound check rejects them. -/
theorem C115_infinite_rejected_partial {dim : Nat} {grids : List (List K)} {F : List Nat → K} {s : RGI K} (h : Loaded dim grids F s)
    {x : List (Dbl K)} (hx : x.length = dim) (hi : pinf ∈ x ∨ ninf ∈ x) : interpolateD s x true = .throws .runtimeError := by
  rw [(C115_bound_check_partial h hx).1]
  intro hb
  have : pinf ∉ x ∧ ninf ∉ x := by
    clear hx hi h
    induction hb with
    | nil => simp
    | num _ _ _ _ _ ih => simp [ih.1, ih.2]
    | nan _ ih => simp [ih.1, ih.2]
  tauto

/-- C115 fails for NaN: on every loaded object, a point all of whose coordinates are NaN passes the bound check and the number stored at the
last node comes back. -/
theorem C115_nan_returns_last_node {dim : Nat} {grids : List (List K)} {F : List Nat → K} {s : RGI K} (h : Loaded dim grids F s) :
    interpolateD s (List.replicate dim nan) true = .ok (num (F (grids.map fun g => g.length - 1))) := by
  obtain ⟨hg, hd, _⟩ := Loaded.fields h
  have key : ∀ gs : List (List K), (∀ g ∈ gs, g ≠ []) → InBoxOrNaN gs (List.replicate gs.length nan) ∧
      ∃ p, IsNode gs (gs.map fun g => g.length - 1) p ∧ Replaced gs (List.replicate gs.length nan) p := by
    intro gs hne
    induction gs with
    | nil => exact ⟨.nil, [], .nil, .nil⟩
    | cons g gs ih =>
      obtain ⟨h1, p, h2, h3⟩ := ih (fun g' h' => hne g' (by simp [h']))
      have hl := List.length_pos_of_ne_nil (hne g (by simp))
      have hb : g[g.length - 1]? = some g[g.length - 1] := List.getElem?_eq_getElem _
      exact ⟨.nan h1, g[g.length - 1] :: p, .cons hb h2, .nan (by rw [List.getLast?_eq_getElem?]; exact hb) h3⟩
  obtain ⟨k1, p, k2, k3⟩ := key grids hg.nonempty
  rw [hd] at k1 k3
  obtain ⟨y, e1, e2⟩ := (C115_bound_check_partial h (x := List.replicate dim nan) (by simp)).2 k1
  obtain ⟨y', e3, e4⟩ := C115_grid_any_point h k3
  rw [C16_node_reproduction h k2 false] at e4
  rw [e3] at e2
  rw [e1, ← e2]
  cases e4
  rfl

/-- C115 refuted by one NaN among numbers: with the bound check on, a grid of two variables with the values 1 to 6 returns 5, the value at the last node of
the first axis. -/
theorem C115_refuted : ∃ s, Loaded 2 [[0, 1, 3], [10, 20]] gridF s ∧ interpolateD s [nan, num 10] true = .ok (num 5) := by
  obtain ⟨s, hs⟩ := gridLoaded
  refine ⟨s, hs, ?_⟩
  have hb : InBoxOrNaN [[0, 1, 3], [10, 20]] [nan, num (10 : ℚ)] :=
    .nan (.num (a := 10) (b := 20) rfl rfl (by norm_num) (by norm_num) .nil)
  obtain ⟨y, e1, e2⟩ := (C115_bound_check_partial hs (x := [nan, num 10]) rfl).2 hb
  obtain ⟨y', e3, e4⟩ := C115_grid_any_point hs (x := [nan, num 10]) (x' := [3, 10]) (.nan rfl (.num .nil))
  have e5 := C16_node_reproduction hs (idx := [2, 0]) (x := [3, 10]) (.cons rfl (.cons rfl .nil)) false
  rw [e5] at e4
  rw [e3] at e2
  rw [e1, ← e2]
  cases e4
  rfl

/-! ## Nearest node -/

variable {D : Type}

/-- C115: at a point with infinite coordinates and numbers `Nearest` returns the nearest node, infinity being nearest to the end of its axis. -/
theorem C115_nearest_infinite_partial {dim : Nat} {grids : List (List K)} (hg : Axes grids) {a : NDArray D} {s : RGN K D}
    (hs : RGN.make dim grids a = (.ok (), s)) (hd : grids.length = dim) {x : List (Dbl K)} {x' : List K} (hx : Replaced grids x x') (hn : nan ∉ x) :
    RGN.nearestD s x = RGN.nearest s x' := by
  rw [RGN.make_run hd a] at hs
  cases hs
  simp only [RGN.nearestD, RGN.nearest, RGN.nearestLoopD_eq hg.increasing hx hn]

/-- C115 fails for `Nearest`: with a NaN coordinate it reads behind the end of an axis, which is undefined, on every grid. -/
theorem C115_nearest_nan_undefined {dim : Nat} {grids : List (List K)} (hg : Axes grids) {a : NDArray D} {s : RGN K D}
    (hs : RGN.make dim grids a = (.ok (), s)) (hd : grids.length = dim) {x : List (Dbl K)} (hx : x.length = dim) (hn : nan ∈ x) :
    RGN.nearestD s x = .ub := by
  rw [RGN.make_run hd a] at hs
  cases hs
  obtain ⟨x', hx'⟩ := exists_replaced hg.nonempty (hx.trans hd.symm)
  simp only [RGN.nearestD, RGN.nearestLoopD_nan hg.nonempty hg.increasing hx' hn, Res.ub_bind]

/-- `GetSurroundingGridNodes` treats plus infinity and NaN as the last node. -/
theorem C115_surrounding {dim : Nat} {grids : List (List K)} (hg : Axes grids) {a : NDArray D} {s : RGN K D}
    (hs : RGN.make dim grids a = (.ok (), s)) (hd : grids.length = dim) {x : List (Dbl K)} {x' : List K} (hx : Replaced grids x x') (hn : ninf ∉ x) :
    RGN.surroundingD s x = RGN.surrounding s x' := by
  rw [RGN.make_run hd a] at hs
  cases hs
  simp only [RGN.surroundingD, RGN.surrounding, RGN.surroundingLoopD_eq hg.increasing hx hn]

example : RGN.nearestD (RGN.make 2 [[0, 1, 3], [10, 20]] ⟨[3, 2], ["a", "b", "c", "d", "e", "f"]⟩).2 [num (2 : ℚ), nan] = .ub ∧
    RGN.nearestD (RGN.make 2 [[0, 1, 3], [10, 20]] ⟨[3, 2], ["a", "b", "c", "d", "e", "f"]⟩).2 [num (2 : ℚ), pinf] =
      RGN.nearest (RGN.make 2 [[0, 1, 3], [10, 20]] ⟨[3, 2], ["a", "b", "c", "d", "e", "f"]⟩).2 [(2 : ℚ), 20] := by
  rw [nearestMake]
  exact ⟨C115_nearest_nan_undefined nearestGrid nearestMake rfl rfl (by simp),
    C115_nearest_infinite_partial nearestGrid nearestMake rfl (.num (.pinf rfl .nil)) (by simp)⟩

end MU
