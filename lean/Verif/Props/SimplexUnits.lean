import Verif.Props.ChangeOfUnitsGrid
import Verif.Props.Simplex
import Verif.Lemmas.SimplexThreshold
import Verif.Props.Nearest

/-!
# C204: simplex interpolation and search of the nearest node under a change of units, of the direction and of the order of the axes

The simplex interpolation of the data is the mean of the data over thresholds (`simplex_integral`): the order in which equal fractions are sorted does not matter.
-/

set_option linter.unusedSectionVars false

namespace MU
open Spec NDInterp MeasureTheory

theorem AxesRes.same {grids : List (List ℝ)} (hg : Axes grids) {x : List ℝ} {cs cs' : List Int} {ys ys' : List ℝ} {ws ws' : List (Nat × Nat × ℝ)}
    (h : AxesRes grids x cs ys ws) (h' : AxesRes grids x cs' ys' ws') : ws = ws' := by
  have hinc := hg.increasing
  clear hg
  induction h generalizing cs' ys' ws' with
  | nil => cases h'; rfl
  | cons h1 _ ih =>
    cases h' with
    | cons h1' h2' =>
      obtain ⟨rfl, rfl, rfl⟩ := h1.det (hinc _ (by simp)) h1'
      rw [ih h2' (fun g hg => hinc g (by simp [hg]))]

theorem new_of_holds {grids : List (List ℝ)} {values : List ℝ} {F : List Nat → ℝ} (hF : Holds (grids.map List.length) values F) {t : NDInterp ℝ}
    (ht : NDInterp.new grids values = .ok t) : t = ⟨grids, values⟩ := by
  unfold NDInterp.new at ht
  rw [if_neg (by simpa using hF.size)] at ht
  cases ht
  rfl

/-- C204: the value does not depend on how the sort leaves axes with equal fractions. -/
theorem C204_sorts {grids : List (List ℝ)} {values : List ℝ} {F : List Nat → ℝ} (hg : Axes grids) (hF : Holds (grids.map List.length) values F) {t : NDInterp ℝ}
    (ht : NDInterp.new grids values = .ok t) {sort sort' : List (ℝ × Nat) → List (ℝ × Nat)} (hs : IsSort sort) (hs' : IsSort sort') {x : List ℝ}
    (hx : x.length = grids.length) : ∃ r, interpSimplex sort t x = .ok r ∧ interpSimplex sort' t x = .ok r := by
  obtain rfl := new_of_holds hF ht
  obtain ⟨_, _, ws, hr, -, e⟩ := simplex_integral hg hF hs hx
  obtain ⟨_, _, ws', hr', -, e'⟩ := simplex_integral hg hF hs' hx
  obtain rfl := AxesRes.same hg hr hr'
  exact ⟨_, e, e'⟩

/-- C204: in other units (on each axis its own) the value at the converted point is the same, in the grid and outside. -/
theorem C204_simplex_units {grids grids' : List (List ℝ)} {values : List ℝ} {F : List Nat → ℝ} (hg : Axes grids) (hg' : Axes grids')
    (hF : Holds (grids.map List.length) values F) {t t' : NDInterp ℝ} (ht : NDInterp.new grids values = .ok t) (ht' : NDInterp.new grids' values = .ok t')
    {sort sort' : List (ℝ × Nat) → List (ℝ × Nat)} (hs : IsSort sort) (hs' : IsSort sort') {x x' : List ℝ} (hu : InUnits grids x grids' x') :
    ∃ r, interpSimplex sort t x = .ok r ∧ interpSimplex sort' t' x' = .ok r := by
  obtain ⟨l1, l2, -, l4⟩ := InUnits.length hu
  have hF' : Holds (grids'.map List.length) values F := by rw [l4]; exact hF
  obtain rfl := new_of_holds hF ht
  obtain rfl := new_of_holds hF' ht'
  obtain ⟨_, _, ws, hr, -, e⟩ := simplex_integral hg hF hs l1
  obtain ⟨_, _, ws', hr', -, e'⟩ := simplex_integral hg' hF' hs' l2
  obtain rfl := AxesRes.same hg' hr' (AxesRes.units hu hr)
  exact ⟨_, e, e'⟩

/-- C204: exchanging two neighbouring axes (with the coordinates of the point and the indices of the data) changes nothing. -/
theorem C204_simplex_exchange {gs hs : List (List ℝ)} {g g' : List ℝ} {F F' : List Nat → ℝ} {values values' : List ℝ}
    (hg : Axes (gs ++ g :: g' :: hs)) (hg' : Axes (gs ++ g' :: g :: hs))
    (hF : Holds ((gs ++ g :: g' :: hs).map List.length) values F) (hF' : Holds ((gs ++ g' :: g :: hs).map List.length) values' F')
    {t t' : NDInterp ℝ} (ht : NDInterp.new (gs ++ g :: g' :: hs) values = .ok t) (ht' : NDInterp.new (gs ++ g' :: g :: hs) values' = .ok t')
    (hFF : ∀ p i j q, p.length = gs.length → F' (p ++ j :: i :: q) = F (p ++ i :: j :: q))
    {sort sort' : List (ℝ × Nat) → List (ℝ × Nat)} (hs1 : IsSort sort) (hs2 : IsSort sort')
    {x y : List ℝ} {a a' : ℝ} (hx : x.length = gs.length) (hy : y.length = hs.length) :
    ∃ r, interpSimplex sort t (x ++ a :: a' :: y) = .ok r ∧ interpSimplex sort' t' (x ++ a' :: a :: y) = .ok r := by
  obtain rfl := new_of_holds hF ht
  obtain rfl := new_of_holds hF' ht'
  obtain ⟨_, _, ws, hr, -, e⟩ := simplex_integral hg hF hs1 (x := x ++ a :: a' :: y) (by simp [hx, hy])
  obtain ⟨_, _, ws', hr', -, e'⟩ := simplex_integral hg' hF' hs2 (x := x ++ a' :: a :: y) (by simp [hx, hy])
  obtain ⟨x₁, x₂, cs₁, cs₂, ys₁, ys₂, ws₁, ws₂, e1, e2, r1, r2⟩ := AxesRes.split hr
  obtain ⟨m1, m2⟩ := axesRes_len r1
  obtain ⟨rfl, e3⟩ := List.append_inj e1 (by omega)
  subst e3
  cases r2 with
  | cons a1 r3 =>
    cases r3 with
    | cons a2 r4 =>
      obtain rfl := AxesRes.same hg' hr' (AxesRes.append r1 (.cons a2 (.cons a1 r4)))
      subst e2
      refine ⟨_, e, ?_⟩
      rw [e']
      congr 2
      funext s
      simp only [thr, List.map_append, List.map_cons]
      exact hFF _ _ _ _ (by simp [m2])

/-- The node of an index in the axes read in the other direction. -/
def Spec.mirrorIndex (grids : List (List ℝ)) (idx : List Nat) : List Nat := List.zipWith (fun g i => g.length - 1 - i) grids idx

/-- The axes read in the other direction. -/
noncomputable def Spec.mirrorAxes (grids : List (List ℝ)) : List (List ℝ) := grids.map fun g => (g.map fun t => -t).reverse

theorem axis_mirror {g : List ℝ} (hinc : g.Pairwise (· < ·)) {x y y' : ℝ} {c c' : Int} {lo hi lo' hi' : Nat} (h : AxisRes g x c y lo hi)
    (h' : AxisRes (g.map fun t => -t).reverse (-x) c' y' lo' hi') {t : ℝ} (h0 : 0 < t) (h1 : t < 1) (hne : t ≠ 1 - y) :
    g.length - 1 - (if y' < t then lo' else hi') = (if y < 1 - t then lo else hi) := by
  have hinc' : (g.map fun t => -t).reverse.Pairwise (· < ·) := by
    rw [List.pairwise_reverse]
    exact hinc.map _ (fun u v h => by simpa using h)
  have get : ∀ i a, g[i]? = some a → (g.map fun t => -t).reverse[g.length - 1 - i]? = some (-a) := by
    intro i a hi
    obtain ⟨hi', rfl⟩ := List.getElem?_eq_some_iff.mp hi
    rw [List.getElem?_reverse (by simp; omega)]
    simp only [List.length_map, show g.length - 1 - (g.length - 1 - i) = i by omega, List.getElem?_map, hi, Option.map_some]
  have hlen : (g.map fun t => -t).reverse.length = g.length := by simp
  cases h with
  | below a k0 hx =>
    have hl := (List.getElem?_eq_some_iff.mp k0).1
    have k1 := get 0 a k0
    have h2 : AxisRes (g.map fun t => -t).reverse (-x) (((g.map fun t => -t).reverse.length : Int) - 1) 0 ((g.map fun t => -t).reverse.length - 1)
        ((g.map fun t => -t).reverse.length - 1) := .above (-a) (by rw [hlen]; simpa using k1) (by linarith)
    obtain ⟨rfl, rfl, rfl⟩ := h'.det hinc' h2
    rw [hlen]
    simp
  | above b k0 hx =>
    have hl := (List.getElem?_eq_some_iff.mp k0).1
    have k1 := get _ b k0
    rw [Nat.sub_self] at k1
    rw [if_pos (show (0 : ℝ) < 1 - t by linarith)]
    rcases lt_or_eq_of_le hx with hlt | rfl
    · obtain ⟨rfl, rfl, rfl⟩ := h'.det hinc' (.below (-b) k1 (by linarith))
      simp
    · by_cases h2 : g.length = 1
      · obtain ⟨rfl, rfl, rfl⟩ := h'.det hinc' (.above (-b) (by rw [hlen, h2]; exact k1) le_rfl)
        simp [hlen, h2]
      · have k2 : (g.map fun t => -t).reverse[0 + 1]? = some ((g.map fun t => -t).reverse[0 + 1]'(by rw [hlen]; omega)) := List.getElem?_eq_getElem _
        have lt2 := List.pairwise_iff_getElem.1 hinc' 0 (0 + 1) (by rw [hlen]; omega) (by rw [hlen]; omega) (by omega)
        obtain ⟨hl0, k1'⟩ := List.getElem?_eq_some_iff.mp k1
        rw [k1'] at lt2
        obtain ⟨rfl, rfl, rfl⟩ := h'.det hinc' (.inside 0 (-b) _ k1 k2 le_rfl lt2)
        rw [if_pos (by simpa using h0)]
        simp
  | inside c a b k0 k1 ha hb =>
    have hl := (List.getElem?_eq_some_iff.mp k1).1
    have e0 := get _ a k0
    have e1 := get _ b k1
    have hab : 0 < b - a := by linarith
    rcases lt_or_eq_of_le ha with hlt | rfl
    · have := h'.det hinc' (.inside (g.length - 1 - (lo + 1)) (-b) (-a) e1 (by rw [show g.length - 1 - (lo + 1) + 1 = g.length - 1 - lo by omega]; exact e0) (by linarith) (by linarith))
      obtain ⟨rfl, rfl, rfl⟩ := this
      have hy : (-x - -b) / (-a - -b) = 1 - (x - a) / (b - a) := by
        rw [show -a - -b = b - a by ring, eq_sub_iff_add_eq, ← add_div, show -x - -b + (x - a) = b - a by ring, div_self hab.ne']
      rw [hy]
      by_cases hc : (x - a) / (b - a) < 1 - t
      · rw [if_pos hc, if_neg (by linarith)]
        omega
      · have : 1 - t < (x - a) / (b - a) := lt_of_le_of_ne (not_lt.1 hc) (fun h => hne (by linarith))
        rw [if_neg hc, if_pos (by linarith)]
        omega
    · rw [sub_self, zero_div, if_pos (show (0 : ℝ) < 1 - t by linarith)]
      by_cases hlo : lo = 0
      · subst hlo
        obtain ⟨rfl, rfl, rfl⟩ := h'.det hinc' (.above (-a) (by rw [hlen]; simpa using e0) le_rfl)
        simp
      · have k2 : (g.map fun t => -t).reverse[g.length - 1 - lo + 1]? = some ((g.map fun t => -t).reverse[g.length - 1 - lo + 1]'(by rw [hlen]; omega)) := List.getElem?_eq_getElem _
        have lt2 := List.pairwise_iff_getElem.1 hinc' (g.length - 1 - lo) (g.length - 1 - lo + 1) (by rw [hlen]; omega) (by rw [hlen]; omega) (by omega)
        obtain ⟨hl0, e0'⟩ := List.getElem?_eq_some_iff.mp e0
        rw [e0'] at lt2
        obtain ⟨rfl, rfl, rfl⟩ := h'.det hinc' (.inside _ (-a) _ e0 k2 le_rfl lt2)
        rw [if_pos (by simpa using h0)]
        omega

theorem thr_mirror {grids : List (List ℝ)} (hinc : ∀ g ∈ grids, g.Pairwise (· < ·)) {x : List ℝ} {cs cs' : List Int} {ys ys' : List ℝ}
    {ws ws' : List (Nat × Nat × ℝ)} (h : AxesRes grids x cs ys ws) (h' : AxesRes (mirrorAxes grids) (x.map fun a => -a) cs' ys' ws') {t : ℝ} (h0 : 0 < t) (h1 : t < 1)
    (hne : ∀ y ∈ ys, t ≠ 1 - y) : mirrorIndex grids (thr ws' t) = thr ws (1 - t) := by
  induction h generalizing cs' ys' ws' with
  | nil => cases h'; rfl
  | @cons g gs x xs c cs y ys lo hi ws a1 a2 ih =>
    cases h' with
    | @cons _ _ _ _ c' cs' y' ys' lo' hi' ws' b1 b2 =>
      have := ih (fun g hg => hinc g (by simp [hg])) b2 (fun y hy => hne y (by simp [hy]))
      have e := axis_mirror (hinc g (by simp)) a1 b1 h0 h1 (hne y (by simp))
      simp only [thr, List.map_cons, mirrorIndex, List.zipWith_cons_cons] at this ⊢
      rw [this, e]

theorem mirrorAxes_lengths (grids : List (List ℝ)) : (mirrorAxes grids).map List.length = grids.map List.length := by
  simp [mirrorAxes, Function.comp_def]

theorem mirrorAxes_axes {grids : List (List ℝ)} (hg : Axes grids) : Axes (mirrorAxes grids) := by
  refine ⟨?_, ?_, ?_⟩
  · simpa [mirrorAxes] using hg.dims
  · intro g h
    obtain ⟨g0, h0, rfl⟩ := List.mem_map.1 h
    simpa using hg.nonempty g0 h0
  · intro g h
    obtain ⟨g0, h0, rfl⟩ := List.mem_map.1 h
    rw [List.pairwise_reverse]
    exact (hg.increasing g0 h0).map _ (fun u v h => by simpa using h)

/-- C204: reading all the axes in the other direction at once changes nothing, in the grid and outside. -/
theorem C204_simplex_mirror_partial {grids : List (List ℝ)} {F F' : List Nat → ℝ} {values values' : List ℝ} (hg : Axes grids)
    (hF : Holds (grids.map List.length) values F) (hF' : Holds ((mirrorAxes grids).map List.length) values' F')
    {t t' : NDInterp ℝ} (ht : NDInterp.new grids values = .ok t) (ht' : NDInterp.new (mirrorAxes grids) values' = .ok t')
    (hFF : ∀ idx, Inside idx (grids.map List.length) → F' idx = F (mirrorIndex grids idx))
    {sort sort' : List (ℝ × Nat) → List (ℝ × Nat)} (hs : IsSort sort) (hs' : IsSort sort') {x : List ℝ} (hx : x.length = grids.length) :
    ∃ r, interpSimplex sort t x = .ok r ∧ interpSimplex sort' t' (x.map fun a => -a) = .ok r := by
  obtain rfl := new_of_holds hF ht
  obtain rfl := new_of_holds hF' ht'
  obtain ⟨_, ys, ws, hr, -, e⟩ := simplex_integral hg hF hs hx
  obtain ⟨_, _, ws', hr', -, e'⟩ := simplex_integral (mirrorAxes_axes hg) hF' hs' (x := x.map fun a => -a) (by simpa [mirrorAxes] using hx)
  refine ⟨_, e, ?_⟩
  rw [e']
  congr 1
  have sub : ∫ s in (0 : ℝ)..1, F (thr ws (1 - s)) = ∫ s in (0 : ℝ)..1, F (thr ws s) := by
    have := intervalIntegral.integral_comp_sub_left (fun s => F (thr ws s)) (1 : ℝ) (a := 0) (b := 1)
    simpa using this
  rw [← sub]
  refine intervalIntegral.integral_congr_ae ?_
  have hfin : Set.Finite ({s : ℝ | ∃ y ∈ ys, s = 1 - y} ∪ {1}) := by
    refine Set.Finite.union ?_ (Set.finite_singleton _)
    refine Set.Finite.subset ((ys.map fun y => 1 - y).toFinset.finite_toSet) ?_
    rintro s ⟨y, hy, rfl⟩
    simpa using hy
  have hae : ∀ᵐ s : ℝ, s ∉ ({s : ℝ | ∃ y ∈ ys, s = 1 - y} ∪ {1}) := hfin.countable.ae_notMem _
  filter_upwards [hae] with s hsn hsm
  rw [Set.uIoc_of_le zero_le_one] at hsm
  have h1 : s < 1 := lt_of_le_of_ne hsm.2 fun h => hsn (Or.inr h)
  have key := thr_mirror hg.increasing hr hr' hsm.1 h1 (fun y hy h => hsn (Or.inl ⟨y, hy, h⟩))
  rw [← key]
  refine hFF _ ?_
  rw [← mirrorAxes_lengths]
  exact isNode_inside (thr_isNode hr' s)

/-- The sorting function of the example. -/
def sortPairs (l : List (ℚ × Nat)) : List (ℚ × Nat) := l.insertionSort (fun a b => a.1 ≤ b.1)

theorem sortPairs_isSort : IsSort sortPairs := fun l => by
  haveI : Std.Total (fun a b : ℚ × Nat => a.1 ≤ b.1) := ⟨fun a b => le_total a.1 b.1⟩
  haveI : IsTrans (ℚ × Nat) (fun a b => a.1 ≤ b.1) := ⟨fun a b c h1 h2 => le_trans h1 h2⟩
  exact ⟨List.perm_insertionSort _ l, List.pairwise_insertionSort _ l⟩

/-- C204 does not hold for one axis read in the other direction: the diagonals of the cells change. The data of `x y` on the unit square, at `(1/4, 3/4)`, and the same data with the first
axis mirrored, at `(-1/4, 3/4)`. -/
theorem C204_refuted : ∃ sort, IsSort sort ∧ ∃ t t', NDInterp.new ([[0, 1], [0, 1]] : List (List ℚ)) [0, 0, 0, 1] = .ok t ∧
    NDInterp.new ([[-1, 0], [0, 1]] : List (List ℚ)) [0, 1, 0, 0] = .ok t' ∧
    interpSimplex sort t [1 / 4, 3 / 4] = .ok (1 / 4) ∧ interpSimplex sort t' [-1 / 4, 3 / 4] = .ok 0 :=
  ⟨sortPairs, sortPairs_isSort, ⟨[[0, 1], [0, 1]], [0, 0, 0, 1]⟩, ⟨[[-1, 0], [0, 1]], [0, 1, 0, 0]⟩, rfl, rfl, by decide +kernel, by decide +kernel⟩

/-! ## Nearest node -/

section nearest
variable {K : Type} [Field K] [LinearOrder K] [IsStrictOrderedRing K] {D : Type} [Inhabited D]

theorem nearestOn_unique {g : List K} {x : K} {i j : Nat} (h : NearestOn g x i) (h' : NearestOn g x j) : i = j := by
  obtain ⟨p, hp, h1⟩ := h
  obtain ⟨q, hq, h2⟩ := h'
  obtain ⟨a1, a2⟩ := h1 j q hq
  obtain ⟨b1, b2⟩ := h2 i p hp
  have e : |x - q| = |x - p| := le_antisymm b1 a1
  exact le_antisymm (b2 e.symm) (a2 e)

theorem nearest_unique {grids : List (List K)} {x : List K} {i j : List Nat} (h : Nearest grids i x) (h' : Nearest grids j x) : i = j := by
  induction h generalizing j with
  | nil => cases h'; rfl
  | cons h1 _ ih =>
    cases h' with
    | cons k1 k2 => rw [nearestOn_unique h1 k1, ih k2]

theorem nearestOn_units {g : List K} {x : K} {i : Nat} (h : NearestOn g x i) {a : K} (ha : 0 < a) (b : K) :
    NearestOn (g.map fun t => a * t + b) (a * x + b) i := by
  obtain ⟨p, hp, h1⟩ := h
  have e : ∀ q, |a * x + b - (a * q + b)| = a * |x - q| := fun q => by
    rw [show a * x + b - (a * q + b) = a * (x - q) by ring, abs_mul, abs_of_pos ha]
  refine ⟨a * p + b, by simp [hp], fun j q hq => ?_⟩
  simp only [List.getElem?_map, Option.map_eq_some_iff] at hq
  obtain ⟨q, hq, rfl⟩ := hq
  obtain ⟨h2, h3⟩ := h1 j q hq
  rw [e, e]
  exact ⟨mul_le_mul_of_nonneg_left h2 ha.le, fun h => h3 (mul_left_cancel₀ ha.ne' h)⟩

theorem nearest_units {grids grids' : List (List K)} {x x' : List K} (hu : InUnits grids x grids' x') {i : List Nat} (h : Nearest grids i x) : Nearest grids' i x' := by
  induction hu generalizing i with
  | nil => exact h
  | cons b ha _ ih =>
    cases h with
    | cons h1 h2 => exact .cons (nearestOn_units h1 ha b) (ih h2)

/-- C204: `Nearest` in other units finds the same node, with the same value. -/
theorem C204_nearest_units {dim : Nat} {grids grids' : List (List K)} (hg : Axes grids) (hg' : Axes grids') {a : NDArray D} {F : List Nat → D}
    (hsh : a.shape = grids.map List.length) (hF : Holds a.shape a.elems F) {s s' : RGN K D} (hs : RGN.make dim grids a = (.ok (), s))
    (hs' : RGN.make dim grids' a = (.ok (), s')) (hd : grids.length = dim) {x x' : List K} (hu : InUnits grids x grids' x') :
    ∃ n n', RGN.nearest s x = .ok n ∧ RGN.nearest s' x' = .ok n' ∧ n'.indices = n.indices ∧ n'.val = n.val := by
  obtain ⟨l1, l2, l3, l4⟩ := InUnits.length hu
  obtain ⟨n, e, h1, -, h3⟩ := C24_nearest hg hsh hF hs hd (x := x) (by omega)
  obtain ⟨n', e', h1', -, h3'⟩ := C24_nearest hg' (by rw [l4]; exact hsh) hF hs' (by omega) (x := x') (by omega)
  have := nearest_unique h1' (nearest_units hu h1)
  exact ⟨n, n', e, e', this, by rw [h3, h3', this]⟩

theorem nearest_append {gs hs : List (List K)} {x y : List K} {i : List Nat} (hx : x.length = gs.length) (h : Nearest (gs ++ hs) i (x ++ y)) :
    ∃ i₁ i₂, i = i₁ ++ i₂ ∧ i₁.length = gs.length ∧ Nearest gs i₁ x ∧ Nearest hs i₂ y := by
  induction gs generalizing x i with
  | nil =>
    have : x = [] := List.length_eq_zero_iff.1 hx
    subst this
    exact ⟨[], i, rfl, rfl, .nil, h⟩
  | cons g gs ih =>
    cases x with
    | nil => simp at hx
    | cons a x =>
      cases h with
      | cons h1 h2 =>
        obtain ⟨i₁, i₂, rfl, hl, k1, k2⟩ := ih (by simpa using hx) h2
        exact ⟨_ :: i₁, i₂, rfl, by simp [hl], .cons h1 k1, k2⟩

theorem nearest_join {gs hs : List (List K)} {x y : List K} {i j : List Nat} (h : Nearest gs i x) (h' : Nearest hs j y) : Nearest (gs ++ hs) (i ++ j) (x ++ y) := by
  induction h with
  | nil => exact h'
  | cons h1 _ ih => exact .cons h1 ih

/-- C204: `Nearest` with two neighbouring axes exchanged finds the same node, with the same value. -/
theorem C204_nearest_exchange {dim : Nat} {gs hs : List (List K)} {g g' : List K} (hg : Axes (gs ++ g :: g' :: hs)) (hg' : Axes (gs ++ g' :: g :: hs))
    {a a' : NDArray D} {F F' : List Nat → D} (hsh : a.shape = (gs ++ g :: g' :: hs).map List.length) (hF : Holds a.shape a.elems F)
    (hsh' : a'.shape = (gs ++ g' :: g :: hs).map List.length) (hF' : Holds a'.shape a'.elems F')
    (hFF : ∀ p i j q, p.length = gs.length → F' (p ++ j :: i :: q) = F (p ++ i :: j :: q))
    {s s' : RGN K D} (hs1 : RGN.make dim (gs ++ g :: g' :: hs) a = (.ok (), s)) (hs2 : RGN.make dim (gs ++ g' :: g :: hs) a' = (.ok (), s'))
    (hd : (gs ++ g :: g' :: hs).length = dim) {x y : List K} {u v : K} (hx : x.length = gs.length) (hy : y.length = hs.length) :
    ∃ n n', RGN.nearest s (x ++ u :: v :: y) = .ok n ∧ RGN.nearest s' (x ++ v :: u :: y) = .ok n' ∧ n'.val = n.val ∧
      ∃ p i j q, p.length = gs.length ∧ n.indices = p ++ i :: j :: q ∧ n'.indices = p ++ j :: i :: q := by
  simp only [List.length_append, List.length_cons] at hd
  obtain ⟨n, e, h1, -, h3⟩ := C24_nearest hg hsh hF hs1 (by simp [hd]) (x := x ++ u :: v :: y) (by simp [hx, hy, hd])
  obtain ⟨n', e', h1', -, h3'⟩ := C24_nearest hg' hsh' hF' hs2 (by simp [hd]) (x := x ++ v :: u :: y) (by simp [hx, hy, hd])
  obtain ⟨p, i₂, e1, hl, k1, k2⟩ := nearest_append hx h1
  cases k2 with
  | @cons _ _ i _ _ _ m1 k3 =>
    cases k3 with
    | @cons _ _ j q _ _ m2 k4 =>
      have := nearest_unique h1' (nearest_join k1 (.cons m2 (.cons m1 k4)))
      exact ⟨n, n', e, e', by rw [h3, h3', this, e1, hFF _ _ _ _ hl], p, i, j, q, hl, e1, this⟩

/-- On no axis are two nodes at the same distance from the point, both nearest. -/
inductive Spec.NoTie : (grids : List (List K)) → (x : List K) → Prop
  | nil : NoTie [] []
  | cons {g : List K} {gs x xs} : (∀ (i j : Nat) (p q : K), g[i]? = some p → g[j]? = some q → (∀ (k : Nat) (r : K), g[k]? = some r → |x - p| ≤ |x - r|) → |x - p| = |x - q| → i = j) → NoTie gs xs →
      NoTie (g :: gs) (x :: xs)

/-- C204: `Nearest` with all axes read in the other direction finds the same node, with the same value, unless two nodes of an axis are equally near. -/
theorem C204_nearest_mirror_partial {dim : Nat} {grids grids' : List (List K)} (hg : Axes grids) (hgr : grids' = grids.map fun g => (g.map fun t => -t).reverse)
    {a a' : NDArray D} {F F' : List Nat → D} (hsh : a.shape = grids.map List.length) (hF : Holds a.shape a.elems F)
    (hsh' : a'.shape = grids'.map List.length) (hF' : Holds a'.shape a'.elems F')
    (hFF : ∀ idx, Inside idx (grids.map List.length) → F' (List.zipWith (fun g i => g.length - 1 - i) grids idx) = F idx)
    {s s' : RGN K D} (hs : RGN.make dim grids a = (.ok (), s)) (hs' : RGN.make dim grids' a' = (.ok (), s'))
    (hd : grids.length = dim) {x : List K} (hx : NoTie grids x) :
    ∃ n n', RGN.nearest s x = .ok n ∧ RGN.nearest s' (x.map fun t => -t) = .ok n' ∧ n'.indices = List.zipWith (fun g i => g.length - 1 - i) grids n.indices ∧
      n'.val = n.val := by
  subst hgr
  have hlx : x.length = grids.length := by
    clear hd hs hs' hFF hF' hsh' hF hsh hg
    induction hx with
    | nil => rfl
    | cons _ _ ih => simp [ih]
  have hg' : Axes (grids.map fun g => (g.map fun t => -t).reverse) := by
    refine ⟨?_, ?_, ?_⟩
    · simpa using hg.dims
    · intro g h
      obtain ⟨g0, h0, rfl⟩ := List.mem_map.1 h
      simpa using hg.nonempty g0 h0
    · intro g h
      obtain ⟨g0, h0, rfl⟩ := List.mem_map.1 h
      rw [List.pairwise_reverse]
      exact (hg.increasing g0 h0).map _ (fun u v h => by simpa using h)
  obtain ⟨n, e, h1, h2, h3⟩ := C24_nearest hg hsh hF hs hd (x := x) (by omega)
  obtain ⟨n', e', h1', -, h3'⟩ := C24_nearest hg' hsh' hF' hs' (by simpa using hd) (x := x.map fun t => -t) (by simp; omega)
  have key : Nearest (grids.map fun g => (g.map fun t => -t).reverse) (List.zipWith (fun g i => g.length - 1 - i) grids n.indices) (x.map fun t => -t) := by
    generalize n.indices = idx at h1
    clear h2 h3 h3' h1' e e' hd hs hs' hFF hF' hsh' hF hsh hg hg' hlx
    induction h1 with
    | nil => exact .nil
    | @cons g gs i is x xs k1 k2 ih =>
      cases hx with
      | cons ht hx =>
        refine .cons ?_ (ih hx)
        obtain ⟨p, hp, k3⟩ := k1
        have hi := (List.getElem?_eq_some_iff.mp hp).1
        have get : ∀ j, j < g.length → (g.map fun t => -t).reverse[j]? = (g[g.length - 1 - j]?).map fun t => -t := by
          intro j hj
          rw [List.getElem?_reverse (by simpa using hj)]
          simp
        have ab : ∀ q : K, |-x - -q| = |x - q| := fun q => by rw [← abs_neg]; congr 1; ring
        show NearestOn (g.map fun t => -t).reverse (-x) (g.length - 1 - i)
        refine ⟨-p, ?_, fun j q hq => ?_⟩
        · rw [get _ (by omega), show g.length - 1 - (g.length - 1 - i) = i by omega, hp]
          rfl
        · have hj := (List.getElem?_eq_some_iff.mp hq).1
          simp only [List.length_reverse, List.length_map] at hj
          rw [get j hj, Option.map_eq_some_iff] at hq
          obtain ⟨q, hq, rfl⟩ := hq
          rw [ab, ab]
          refine ⟨(k3 _ q hq).1, fun h => ?_⟩
          have := ht i _ p q hp hq (fun k r hr => (k3 k r hr).1) h.symm
          omega
  have := nearest_unique h1' key
  exact ⟨n, n', e, e', this, by rw [h3, h3', this, hFF _ (isNode_inside h2)]⟩

/-- C204 does not hold for a point in the middle of two nodes: the upper of the two is taken, in the mirrored grid the other one. -/
theorem C204_refuted_nearest : ∃ (a a' : NDArray Nat) (s s' : RGN ℚ Nat), RGN.make 1 [[0, 1]] a = (.ok (), s) ∧ RGN.make 1 [[-1, 0]] a' = (.ok (), s') ∧
    a = ⟨[2], [5, 7]⟩ ∧ a' = ⟨[2], [7, 5]⟩ ∧ RGN.nearest s [1 / 2] = .ok ⟨[1], [1], 7⟩ ∧ RGN.nearest s' [-1 / 2] = .ok ⟨[1], [0], 5⟩ := by
  refine ⟨_, _, ⟨[[0, 1]], ⟨[2], [5, 7]⟩⟩, ⟨[[-1, 0]], ⟨[2], [7, 5]⟩⟩, RGN.make_run (dim := 1) (grids := [[0, 1]]) rfl _, RGN.make_run (dim := 1) (grids := [[-1, 0]]) rfl _, rfl, rfl, ?_, ?_⟩
  · have h : RGN.nearestLoop ([[0, 1]] : List (List ℚ)) [1 / 2] = .ok ([1], [1]) := by decide +kernel
    unfold RGN.nearest
    rw [h]
    rfl
  · have h : RGN.nearestLoop ([[-1, 0]] : List (List ℚ)) [-1 / 2] = .ok ([1], [0]) := by decide +kernel
    unfold RGN.nearest
    rw [h]
    rfl

/-- C204: the hypotheses are met: a point in the grid that is not in the middle of nodes, in the units of the example of C199. -/
example : NoTie ([[0, 1, 3]] : List (List ℚ)) [5 / 2] := by
  refine .cons (fun i j p q hi hj h he => ?_) .nil
  match i, hi with
  | 0, hi => simp at hi; subst hi; have := h 2 3 rfl; norm_num at this
  | 1, hi => simp at hi; subst hi; have := h 2 3 rfl; norm_num at this
  | 2, hi =>
    simp at hi
    subst hi
    match j, hj with
    | 0, hj => simp at hj; subst hj; norm_num at he
    | 1, hj => simp at hj; subst hj; norm_num at he
    | 2, hj => rfl
    | n + 3, hj => simp at hj
  | n + 3, hi => simp at hi

end nearest

/-- C204: the hypotheses are met: a grid of two axes, its mirror image, and data on it. -/
example : Axes ([[0, 1], [0, 2, 3]] : List (List ℝ)) ∧ mirrorAxes ([[0, 1], [0, 2, 3]] : List (List ℝ)) = [[-1, 0], [-3, -2, 0]] ∧
    mirrorIndex ([[0, 1], [0, 2, 3]] : List (List ℝ)) [0, 2] = [1, 0] := by
  refine ⟨⟨by simp, by simp, by simp; norm_num⟩, by simp [mirrorAxes], by simp [mirrorIndex]⟩

end MU
