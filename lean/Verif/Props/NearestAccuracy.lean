import Verif.Props.Nearest
import Verif.Props.Convergence
import Verif.Spec.Lipschitz
import Verif.Model.RoundedNearest
import Verif.Lemmas.RoundedGrid
import Mathlib.Tactic.IntervalCases

set_option linter.unusedSectionVars false

/-!
# C128, C129: accuracy of the nearest node, and the nearest node in double arithmetic
-/

namespace MU
open Spec NDInterp

/-! ## C128 -/

section exact
variable {K : Type} [Field K] [LinearOrder K] [IsStrictOrderedRing K]

/-- On each axis, neighbouring nodes are at most the element of `hs` of this axis apart. -/
def Spec.Steps (grids : List (List K)) (hs : List K) : Prop :=
  List.Forall₂ (fun g h => 0 ≤ h ∧ ∀ i a b, g[i]? = some a → g[i + 1]? = some b → b - a ≤ h) grids hs

/-- The sum over the axes of `L h / 2`. -/
def Spec.halfSteps : (Ls hs : List K) → K
  | L :: Ls, h :: hs => L * (h / 2) + halfSteps Ls hs
  | _, _ => 0

/-- A nearest node of an axis is at most half a step away from a point of the range of the axis. -/
theorem NearestOn.dist {g : List K} {x a b h : K} {i : Nat} (hn : NearestOn g x i) (hinc : g.Pairwise (· < ·)) (ha : g.head? = some a)
    (hb : g.getLast? = some b) (h0 : a ≤ x) (h1 : x ≤ b) (hh : 0 ≤ h) (hs : ∀ i a b, g[i]? = some a → g[i + 1]? = some b → b - a ≤ h) :
    ∃ p, g[i]? = some p ∧ |x - p| ≤ h / 2 := by
  obtain ⟨p, hp, hmin⟩ := hn
  refine ⟨p, hp, ?_⟩
  rw [List.head?_eq_getElem?] at ha
  rw [List.getLast?_eq_getElem?] at hb
  have hl : g.length - 1 < g.length := (List.getElem?_eq_some_iff.1 hb).1
  rcases Nat.lt_or_ge 1 g.length with h2 | h2
  · obtain ⟨ha1, ha2⟩ := List.getElem?_eq_some_iff.1 ha
    obtain ⟨hb1, hb2⟩ := List.getElem?_eq_some_iff.1 hb
    obtain ⟨c, hc, l0, l1⟩ := Interp1d.exists_cell hinc (by omega : 2 ≤ g.length) (x := x) (by rw [ha2]; exact h0) (by rw [hb2]; exact h1)
    have d := hs c g[c] g[c + 1] (List.getElem?_eq_getElem _) (List.getElem?_eq_getElem _)
    have m1 := (hmin c g[c] (List.getElem?_eq_getElem _)).1
    have m2 := (hmin (c + 1) g[c + 1] (List.getElem?_eq_getElem _)).1
    rw [abs_of_nonneg (by linarith : 0 ≤ x - g[c])] at m1
    rw [abs_of_nonpos (by linarith : x - g[c + 1] ≤ 0)] at m2
    linarith
  · have : g.length - 1 = 0 := by omega
    rw [this, ha] at hb
    injection hb with hb
    subst hb
    have : x = a := le_antisymm h1 h0
    have := (hmin 0 a ha).1
    rw [‹x = a›, sub_self, abs_zero] at this
    rw [‹x = a›]
    linarith

theorem nearest_dist {grids : List (List K)} {idx : List Nat} {x p : List K} (hn : Nearest grids idx x) (hinc : ∀ g ∈ grids, g.Pairwise (· < ·)) :
    ∀ {p hs : List K}, IsNode grids idx p → InBox grids x → Steps grids hs → List.Forall₂ (fun s h => s ≤ h / 2) (List.zipWith (fun s t => |s - t|) x p) hs := by
  induction hn with
  | nil => intro p hs hp _ hst; cases hp; cases hst; exact .nil
  | @cons g gs i is x xs h1 _ ih =>
    intro p hs hp hb hst
    cases hp with | @cons _ _ _ _ q ps e1 hp =>
    cases hb with | cons ha hl l0 l1 hb =>
    cases hst with | @cons _ h _ hs s1 hst =>
    obtain ⟨q', e1', hd⟩ := NearestOn.dist h1 (hinc g List.mem_cons_self) ha hl l0 l1 s1.1 s1.2
    rw [e1] at e1'
    injection e1' with e1'
    subst e1'
    exact .cons hd (ih (fun g h => hinc g (List.mem_cons_of_mem _ h)) hp hb hst)

theorem weightedDistance_le {Ls : List K} : ∀ {x p hs : List K}, (∀ L ∈ Ls, 0 ≤ L) → x.length = p.length →
    List.Forall₂ (fun s h => s ≤ h / 2) (List.zipWith (fun s t => |s - t|) x p) hs → weightedDistance Ls x p ≤ halfSteps Ls hs := by
  induction Ls with
  | nil => intro x p hs _ _ _; simp [weightedDistance, halfSteps]
  | cons L Ls ih =>
    intro x p hs hL hl h
    cases x with
    | nil =>
      rw [List.zipWith_nil_left] at h
      cases h
      simp [weightedDistance, halfSteps]
    | cons s x =>
      cases p with
      | nil => simp at hl
      | cons t p =>
        cases h with
        | cons h1 h =>
          have := ih (fun L h => hL L (List.mem_cons_of_mem _ h)) (by simpa using hl) h
          have := mul_le_mul_of_nonneg_left h1 (hL L List.mem_cons_self)
          simp only [weightedDistance, halfSteps]
          linarith

theorem isNode_length {grids : List (List K)} {idx : List Nat} {p : List K} (h : IsNode grids idx p) : p.length = grids.length := by
  induction h with
  | nil => rfl
  | cons _ _ ih => simp [ih]

/-- C128: on data sampled from a function `f` that varies along each axis at the rate `L` of this axis at most, the value at the nearest node differs from
`f x` by at most the sum over the axes of `L h / 2`, where `h` bounds the steps of the axis, at every point of the box. -/
theorem C128_lipschitz {dim : Nat} {grids : List (List K)} (hg : Axes grids) {a : NDArray K} {F : List Nat → K}
    (hsh : a.shape = grids.map List.length) (hF : Holds a.shape a.elems F) {s : RGN K K} (hs : RGN.make dim grids a = (.ok (), s))
    (hd : grids.length = dim) {f : List K → K} (hf : ∀ idx p, IsNode grids idx p → F idx = f p) {Ls steps : List K} (hL : ∀ L ∈ Ls, 0 ≤ L)
    (hlip : ∀ x y, InBox grids x → InBox grids y → |f x - f y| ≤ weightedDistance Ls x y) (hst : Steps grids steps) {x : List K} (hx : InBox grids x) :
    ∃ n, RGN.nearest s x = .ok n ∧ |n.val - f x| ≤ halfSteps Ls steps := by
  obtain ⟨n, h1, h2, h3, h4⟩ := C24_nearest hg hsh hF hs hd (x := x) (by rw [← hd]; exact RGI.InBox.len hx)
  refine ⟨n, h1, ?_⟩
  rw [h4, hf _ _ h3, abs_sub_comm]
  refine (hlip x n.coords hx (RGI.IsNode.inBox h3 hg.increasing)).trans ?_
  exact weightedDistance_le hL (by rw [isNode_length h3]; exact RGI.InBox.len hx) (nearest_dist (p := n.coords) h2 hg.increasing h3 hx hst)

end exact

/-- C128, convergence: for each function `f` continuous on a box and each `ε` there is a `δ` such that the value at the nearest node is within `ε` of `f` on
the whole box, for every grid on the box with steps of at most `δ`. -/
theorem C128_converges {f : List ℝ → ℝ} {lo hi : List ℝ} (hf : ContinuousOnBox f lo hi) {ε : ℝ} (hε : 0 < ε) :
    ∃ δ > 0, ∀ (dim : Nat) (grids : List (List ℝ)) (a : NDArray ℝ) (F : List Nat → ℝ) (s : RGN ℝ ℝ), Axes grids → a.shape = grids.map List.length →
      Holds a.shape a.elems F → RGN.make dim grids a = (.ok (), s) → grids.length = dim → Spans grids lo hi →
      Steps grids (grids.map fun _ => δ) → (∀ idx p, IsNode grids idx p → F idx = f p) →
      ∀ x, Box lo hi x → ∃ n, RGN.nearest s x = .ok n ∧ |n.val - f x| ≤ ε := by
  obtain ⟨δ, hδ, hmod⟩ := hf.uniform hε
  refine ⟨δ, hδ, fun dim grids a F s hg hsh hF hs hd hspan hst hfp x hx => ?_⟩
  have hin := hspan.inBox_iff.2 hx
  obtain ⟨n, h1, h2, h3, h4⟩ := C24_nearest hg hsh hF hs hd (x := x) (by rw [← hd]; exact RGI.InBox.len hin)
  refine ⟨n, h1, ?_⟩
  rw [h4, hfp _ _ h3, abs_sub_comm]
  refine hmod x hx n.coords (hspan.inBox_iff.1 (RGI.IsNode.inBox h3 hg.increasing)) ?_
  have := nearest_dist (p := n.coords) h2 hg.increasing h3 hin hst
  have hl : x.length = n.coords.length := by rw [isNode_length h3]; exact RGI.InBox.len hin
  have hlen : n.coords.length = grids.length := isNode_length h3
  rw [List.forall₂_iff_get] at this ⊢
  refine ⟨hl, fun i hi hi' => ?_⟩
  have := this.2 i (by simp; omega) (by simp; omega)
  simp only [List.get_eq_getElem, List.getElem_zipWith, List.getElem_map] at this ⊢
  linarith

/-- `x² + 3y` on a grid of three and two nodes: the rates on the box are 6 and 3, the steps 2 and 10. -/
example : ∃ n : GridNode ℚ ℚ, RGN.nearest (RGN.make 2 [[(0 : ℚ), 1, 3], [10, 20]] ⟨[3, 2], [(30 : ℚ), 60, 31, 61, 39, 69]⟩).2 [(2 : ℚ), 14] = .ok n ∧
    |n.val - (2 ^ 2 + 3 * 14)| ≤ 6 * (2 / 2) + (3 * (10 / 2) + 0) := by
  have hg : Axes [[(0 : ℚ), 1, 3], [10, 20]] := ⟨by simp, by simp, by simp; norm_num⟩
  have := C128_lipschitz (dim := 2) hg (a := ⟨[3, 2], [(30 : ℚ), 60, 31, 61, 39, 69]⟩) (F := fun idx => [(30 : ℚ), 60, 31, 61, 39, 69].getD (idx.getD 0 0 * 2 + idx.getD 1 0) 0)
    rfl ⟨rfl, ?_⟩ (s := (RGN.make 2 [[(0 : ℚ), 1, 3], [10, 20]] ⟨[3, 2], [(30 : ℚ), 60, 31, 61, 39, 69]⟩).2) ?_ rfl (f := fun x => x.getD 0 0 ^ 2 + 3 * x.getD 1 0) ?_
    (Ls := [6, 3]) (steps := [2, 10]) (by simp) ?_ ?_ (x := [2, 14]) ?_
  · simpa [halfSteps] using this
  · intro idx h
    cases h with | @cons i _ is _ hi h => cases h with | @cons j _ js _ hj h => cases h with | nil =>
    have hi : i < 3 := hi
    have hj : j < 2 := hj
    interval_cases i <;> interval_cases j <;> rfl
  · rw [RGN.make_run (dim := 2) (grids := [[(0 : ℚ), 1, 3], [10, 20]]) rfl]
  · intro idx p h
    cases h with | @cons _ _ i _ u _ e1 h => cases h with | @cons _ _ j _ w _ e2 h => cases h with | nil =>
    have hi := (List.getElem?_eq_some_iff.1 e1).1
    have hj := (List.getElem?_eq_some_iff.1 e2).1
    have hi : i < 3 := hi
    have hj : j < 2 := hj
    interval_cases i <;> interval_cases j <;> simp at e1 e2 <;> subst e1 <;> subst e2 <;> norm_num
  · intro x y hx hy
    cases hx with | @cons _ _ x1 _ _ _ a1 b1 l1 r1 hx => cases hx with | @cons _ _ x2 _ _ _ a2 b2 l2 r2 hx => cases hx with | nil =>
    cases hy with | @cons _ _ y1 _ _ _ a1' b1' l1' r1' hy => cases hy with | @cons _ _ y2 _ _ _ a2' b2' l2' r2' hy => cases hy with | nil =>
    simp at a1 b1 a1' b1'
    subst a1 b1 a1' b1'
    simp only [weightedDistance, List.getD_cons_zero, List.getD_cons_succ, add_zero]
    have e : x1 ^ 2 + 3 * x2 - (y1 ^ 2 + 3 * y2) = (x1 + y1) * (x1 - y1) + 3 * (x2 - y2) := by ring
    rw [e]
    refine (abs_add_le _ _).trans ?_
    rw [abs_mul, abs_mul, abs_of_nonneg (by linarith : 0 ≤ x1 + y1), abs_of_pos (by norm_num : (0 : ℚ) < 3)]
    have := mul_le_mul_of_nonneg_right (by linarith : x1 + y1 ≤ 6) (abs_nonneg (x1 - y1))
    linarith
  · refine .cons ⟨by norm_num, fun i a b h1 h2 => ?_⟩ (.cons ⟨by norm_num, fun i a b h1 h2 => ?_⟩ .nil)
    · have hi := (List.getElem?_eq_some_iff.1 h2).1
      have hi : i + 1 < 3 := hi
      have : i = 0 ∨ i = 1 := by omega
      rcases this with rfl | rfl <;> simp at h1 h2 <;> subst h1 <;> subst h2 <;> norm_num
    · have hi := (List.getElem?_eq_some_iff.1 h2).1
      have hi : i + 1 < 2 := hi
      have : i = 0 := by omega
      subst this
      simp at h1 h2
      subst h1 h2
      norm_num
  · exact .cons rfl rfl (by norm_num) (by norm_num) (.cons rfl rfl (by norm_num) (by norm_num) .nil)

/-! ## C129 -/

section rounded
variable {rnd : ℝ → ℝ} {D : Type}

theorem double_half {y : ℝ} (h : Double y) : Double (1 / 2 * y) := by
  obtain ⟨m, e, hm, rfl⟩ := h
  refine ⟨m, e - 1, hm, ?_⟩
  rw [zpow_sub_one₀ (by norm_num)]
  ring

/-- The computed midpoint. -/
theorem midpoint_round (hr : ToNearest rnd) (t : ℝ) : |rnd (1 / 2 * rnd t) - 1 / 2 * t| ≤ |t| / 2 / 2 ^ 53 := by
  rw [toNearest_double hr (double_half (hr t).1)]
  have := toNearest_err hr t
  rw [abs_sub_comm, ← mul_sub, abs_mul, abs_of_pos (by norm_num : (0 : ℝ) < 1 / 2)]
  linarith

namespace RGN

/-- The three outcomes on an axis, for the exact and the rounded comparison. -/
theorem nearestIndexR_cases (rnd : ℝ → ℝ) {g : List ℝ} (hne : g ≠ []) (hinc : g.Pairwise (· < ·)) (x : ℝ) :
    (∃ i, nearestIndex g x = .ok i ∧ nearestIndexR rnd g x = .ok i) ∨
    ∃ (k : Nat) (hk : k + 1 < g.length), g[k] ≤ x ∧ x < g[k + 1] ∧ nearestIndex g x = .ok (if 1 / 2 * (g[k + 1] + g[k]) ≤ x then k + 1 else k) ∧
      nearestIndexR rnd g x = .ok (if rnd (1 / 2 * rnd (g[k + 1] + g[k])) ≤ x then k + 1 else k) := by
  have hl : 0 < g.length := List.length_pos_of_ne_nil hne
  unfold nearestIndex nearestIndexR
  rw [vIdx_lt hl, vIdx_lt (show g.length - 1 < g.length by omega)]
  by_cases h1 : x < g[0]
  · exact .inl ⟨0, by simp [h1], by simp [h1]⟩
  by_cases h2 : g[g.length - 1] ≤ x
  · exact .inl ⟨g.length - 1, by simp [h1, h2], by simp [h1, h2]⟩
  obtain ⟨k, hk, hkl, hks⟩ := upperBound_spec (pairwise_lt_le hinc) x
  have hk0 : 0 < k := (hks 0 hl).mpr (not_lt.mp h1)
  have hkn : k < g.length := by
    by_contra hc
    exact h2 ((hks (g.length - 1) (by omega)).mp (by omega))
  obtain ⟨k, rfl⟩ : ∃ c, k = c + 1 := ⟨k - 1, by omega⟩
  refine .inr ⟨k, hkn, (hks k (by omega)).mp (by omega), ?_, ?_, ?_⟩
  · by_contra hc
    exact absurd ((hks (k + 1) hkn).mpr (not_lt.mp hc)) (by omega)
  · simp only [Res.ok_bind, h1, h2, if_false, hk, Nat.add_sub_cancel]
    rw [vIdx_lt hkn, vIdx_lt (show k < g.length by omega)]
    simp only [Res.ok_bind]
    split <;> rfl
  · simp only [Res.ok_bind, h1, h2, if_false, hk, Nat.add_sub_cancel]
    rw [vIdx_lt hkn, vIdx_lt (show k < g.length by omega)]
    simp only [Res.ok_bind]
    split <;> rfl

end RGN

/-- `i` is the index of a node of the axis whose distance from `x` exceeds that of every other node by at most `t`. -/
def Spec.NearestUpTo (t : ℝ) (g : List ℝ) (x : ℝ) (i : Nat) : Prop :=
  ∃ p, g[i]? = some p ∧ ∀ (j : Nat) q, g[j]? = some q → |x - p| ≤ |x - q| + t

theorem nearestIndexR_upTo (hr : ToNearest rnd) {g : List ℝ} (hne : g ≠ []) (hinc : g.Pairwise (· < ·)) {B : ℝ} (hB : ∀ q ∈ g, |q| ≤ B) (x : ℝ) :
    ∃ i, RGN.nearestIndexR rnd g x = .ok i ∧ NearestUpTo (2 * B / 2 ^ 53) g x i := by
  obtain ⟨i, hi, p, hp, hmin⟩ := RGN.nearestIndex_spec hne hinc x
  have hB0 : 0 ≤ B := by
    obtain ⟨q, hq⟩ := List.exists_mem_of_ne_nil g hne
    exact (abs_nonneg q).trans (hB q hq)
  have ht : 0 ≤ 2 * B / 2 ^ 53 := by positivity
  rcases RGN.nearestIndexR_cases rnd hne hinc x with ⟨i', h1, h2⟩ | ⟨k, hk, l0, l1, h1, h2⟩
  · rw [hi] at h1
    injection h1 with h1
    subst h1
    exact ⟨i, h2, p, hp, fun j q hj => by linarith [(hmin j q hj).1]⟩
  · have hm := midpoint_round hr (g[k + 1] + g[k])
    have hsum : |g[k + 1] + g[k]| ≤ 2 * B := by
      refine (abs_add_le _ _).trans ?_
      have := hB g[k + 1] (List.getElem_mem _)
      have := hB g[k] (List.getElem_mem _)
      linarith
    have hm' : |rnd (1 / 2 * rnd (g[k + 1] + g[k])) - 1 / 2 * (g[k + 1] + g[k])| ≤ B / 2 ^ 53 := by
      refine hm.trans ?_
      have : |g[k + 1] + g[k]| / 2 ≤ B := by linarith
      gcongr
    rw [abs_le] at hm'
    refine ⟨_, h2, ?_⟩
    have key : ∀ {i0 i1 : Nat} (h0 : i0 < g.length) (h1 : i1 < g.length), i = i0 → |x - g[i1]| ≤ |x - g[i0]| + 2 * B / 2 ^ 53 →
        NearestUpTo (2 * B / 2 ^ 53) g x i1 := by
      intro i0 i1 h0 h1 he h
      subst he
      have : p = g[i] := by
        rw [List.getElem?_eq_getElem h0] at hp
        injection hp with hp
        exact hp.symm
      subst this
      exact ⟨g[i1], List.getElem?_eq_getElem h1, fun j q hj => by linarith [(hmin j q hj).1]⟩
    rw [hi] at h1
    injection h1 with h1
    by_cases c1 : 1 / 2 * (g[k + 1] + g[k]) ≤ x <;> by_cases c2 : rnd (1 / 2 * rnd (g[k + 1] + g[k])) ≤ x <;>
      simp only [c1, c2, if_true, if_false] at h1 ⊢
    · exact key hk hk h1 (by linarith)
    · refine key hk (by omega) h1 ?_
      rw [abs_of_nonneg (by linarith), abs_of_neg (by linarith)]
      have e : 2 * B / 2 ^ 53 = 2 * (B / 2 ^ 53) := by ring
      linarith [hm'.2]
    · refine key (by omega) hk h1 ?_
      rw [abs_of_neg (by linarith), abs_of_nonneg (by linarith)]
      have e : 2 * B / 2 ^ 53 = 2 * (B / 2 ^ 53) := by ring
      linarith [hm'.1]
    · exact key (by omega) (by omega) h1 (by linarith)

/-- C129: in double arithmetic, at every point, `Nearest` returns on each axis a node whose distance from the point exceeds that of the nearest node by at most
`2 B / 2^53`, where `B` bounds the coordinates of the nodes, with the coordinates and the datum of the node. -/
theorem C129_nearly {dim : Nat} (hr : ToNearest rnd) {grids : List (List ℝ)} (hg : Axes grids) {a : NDArray D} {F : List Nat → D}
    (hsh : a.shape = grids.map List.length) (hF : Holds a.shape a.elems F) {s : RGN ℝ D} (hs : RGN.make dim grids a = (.ok (), s))
    (hd : grids.length = dim) {B : ℝ} (hB : ∀ g ∈ grids, ∀ q ∈ g, |q| ≤ B) {x : List ℝ} (hx : x.length = dim) :
    ∃ n, RGN.nearestR rnd s x = .ok n ∧ IsNode grids n.indices n.coords ∧ n.val = F n.indices ∧
      ∀ (k : Nat) (g : List ℝ) (t : ℝ) (i : Nat), grids[k]? = some g → x[k]? = some t → n.indices[k]? = some i → NearestUpTo (2 * B / 2 ^ 53) g t i := by
  rw [RGN.make_run hd a] at hs
  cases hs
  have hloop : ∀ (gs : List (List ℝ)) (xs : List ℝ), (∀ g ∈ gs, g ≠ []) → (∀ g ∈ gs, g.Pairwise (· < ·)) → (∀ g ∈ gs, ∀ q ∈ g, |q| ≤ B) →
      xs.length = gs.length → ∃ idx p, RGN.nearestLoopR rnd gs xs = .ok (idx, p) ∧ IsNode gs idx p ∧
        ∀ (k : Nat) (g : List ℝ) (t : ℝ) (i : Nat), gs[k]? = some g → xs[k]? = some t → idx[k]? = some i → NearestUpTo (2 * B / 2 ^ 53) g t i := by
    intro gs
    induction gs with
    | nil =>
      intro xs _ _ _ hl
      cases xs with
      | nil => exact ⟨[], [], rfl, .nil, by simp⟩
      | cons _ _ => simp at hl
    | cons g gs ih =>
      intro xs h1 h2 h3 hl
      cases xs with
      | nil => simp at hl
      | cons x xs =>
        obtain ⟨i, hi, hn⟩ := nearestIndexR_upTo hr (h1 g List.mem_cons_self) (h2 g List.mem_cons_self) (h3 g List.mem_cons_self) x
        obtain ⟨is, ps, e1, e2, e3⟩ := ih xs (fun g h => h1 g (List.mem_cons_of_mem _ h)) (fun g h => h2 g (List.mem_cons_of_mem _ h))
          (fun g h => h3 g (List.mem_cons_of_mem _ h)) (by simpa using hl)
        obtain ⟨p, hp, hmin⟩ := hn
        refine ⟨i :: is, p :: ps, by simp [RGN.nearestLoopR, hi, e1, vIdx, hp], .cons hp e2, ?_⟩
        intro k g' t j a1 a2 a3
        cases k with
        | zero =>
          simp at a1 a2 a3
          subst a1 a2 a3
          exact ⟨p, hp, hmin⟩
        | succ k => exact e3 k g' t j (by simpa using a1) (by simpa using a2) (by simpa using a3)
  obtain ⟨idx, p, h1, h2, h3⟩ := hloop grids x hg.nonempty hg.increasing hB (hx.trans hd.symm)
  have hrd := RGN.mdRead_holds hF (hsh ▸ isNode_inside h2)
  exact ⟨⟨idx, p, F idx⟩, by simp [RGN.nearestR, h1, hrd], h2, rfl, h3⟩

/-- On each axis the point is not within a rounding error of the middle of two neighbouring nodes. -/
def Spec.AwayFromMiddles (grids : List (List ℝ)) (x : List ℝ) : Prop :=
  List.Forall₂ (fun g t => ∀ (k : Nat) p q, g[k]? = some p → g[k + 1]? = some q → |p + q| / 2 / 2 ^ 53 < |t - (p + q) / 2|) grids x

/-- C129: at every point that is not within a relative rounding error of the middle of two neighbouring nodes, `Nearest` in double arithmetic returns the
same node as in exact arithmetic, which is the nearest (C24). -/
theorem C129_agrees (hr : ToNearest rnd) {s : RGN ℝ D} (hg : Axes s.grid_list) {x : List ℝ} (hx : AwayFromMiddles s.grid_list x) :
    RGN.nearestR rnd s x = RGN.nearest s x := by
  have hloop : ∀ (gs : List (List ℝ)) (xs : List ℝ), (∀ g ∈ gs, g ≠ []) → (∀ g ∈ gs, g.Pairwise (· < ·)) → AwayFromMiddles gs xs →
      RGN.nearestLoopR rnd gs xs = RGN.nearestLoop gs xs := by
    intro gs xs h1 h2 h3
    induction h3 with
    | nil => rfl
    | @cons g t gs xs hd _ ih =>
      have : RGN.nearestIndexR rnd g t = RGN.nearestIndex g t := by
        rcases RGN.nearestIndexR_cases rnd (h1 g List.mem_cons_self) (h2 g List.mem_cons_self) t with ⟨i', a1, a2⟩ | ⟨k, hk, l0, l1, a1, a2⟩
        · rw [a1, a2]
        · rw [a1, a2]
          have hm := midpoint_round hr (g[k + 1] + g[k])
          have hk' := hd k g[k] g[k + 1] (List.getElem?_eq_getElem _) (List.getElem?_eq_getElem _)
          rw [add_comm g[k + 1]] at hm ⊢
          rw [abs_le] at hm
          have : rnd (1 / 2 * rnd (g[k] + g[k + 1])) ≤ t ↔ 1 / 2 * (g[k] + g[k + 1]) ≤ t := by
            rcases lt_abs.1 hk' with h | h
            · constructor <;> intro _ <;> linarith [hm.1, hm.2, abs_nonneg (g[k] + g[k + 1])]
            · constructor <;> intro _ <;> linarith [hm.1, hm.2, abs_nonneg (g[k] + g[k + 1])]
          simp only [this]
      simp only [RGN.nearestLoopR, RGN.nearestLoop, this, ih (fun g h => h1 g (List.mem_cons_of_mem _ h)) (fun g h => h2 g (List.mem_cons_of_mem _ h))]
  unfold RGN.nearestR RGN.nearest
  rw [hloop _ _ hg.nonempty hg.increasing hx]

/-- C129, at a node: when neighbouring nodes are more than a relative rounding error apart, `Nearest` at a node returns this node. -/
theorem C129_node_partial {dim : Nat} (hr : ToNearest rnd) {grids : List (List ℝ)} (hg : Axes grids) {a : NDArray D} {F : List Nat → D}
    (hsh : a.shape = grids.map List.length) (hF : Holds a.shape a.elems F) {s : RGN ℝ D} (hs : RGN.make dim grids a = (.ok (), s))
    (hd : grids.length = dim) (hgap : ∀ g ∈ grids, ∀ (k : Nat) p q, g[k]? = some p → g[k + 1]? = some q → |p + q| / 2 ^ 53 < q - p)
    {idx : List Nat} {x : List ℝ} (hx : IsNode grids idx x) : RGN.nearestR rnd s x = .ok ⟨idx, x, F idx⟩ := by
  have hlist : s.grid_list = grids := by
    rw [RGN.make_run hd a] at hs
    cases hs
    rfl
  have haway : AwayFromMiddles grids x := by
    have hinc := hg.increasing
    clear hs hlist hF hsh hd hg
    induction hx with
    | nil => exact .nil
    | @cons g gs i is t ts e1 _ ih =>
      refine .cons (fun k p q hp hq => ?_) (ih (fun g h => hgap g (List.mem_cons_of_mem _ h)) (fun g h => hinc g (List.mem_cons_of_mem _ h)))
      have hgk := hgap g List.mem_cons_self k p q hp hq
      have hi := hinc g List.mem_cons_self
      have e : |p + q| / 2 / 2 ^ 53 = |p + q| / 2 ^ 53 / 2 := by ring
      rw [e]
      rcases Nat.lt_or_ge k i with h | h
      · have := getElem?_le hi hq e1 h
        rw [abs_of_nonneg (show 0 ≤ t - (p + q) / 2 by linarith [div_nonneg (abs_nonneg (p + q)) (by norm_num : (0 : ℝ) ≤ 2 ^ 53)])]
        linarith
      · have := getElem?_le hi e1 hp h
        rw [abs_of_nonpos (show t - (p + q) / 2 ≤ 0 by linarith [div_nonneg (abs_nonneg (p + q)) (by norm_num : (0 : ℝ) ≤ 2 ^ 53)])]
        linarith
  rw [C129_agrees hr (hlist ▸ hg) (hlist ▸ haway)]
  obtain ⟨n, h1, h2, h3, h4⟩ := C24_nearest hg hsh hF hs hd (x := x) (by rw [isNode_length hx, hd])
  have huniq : ∀ {gs : List (List ℝ)} {idx : List Nat} {x : List ℝ}, (∀ g ∈ gs, g.Pairwise (· < ·)) → IsNode gs idx x → ∀ {i c}, Nearest gs i x → IsNode gs i c →
      i = idx ∧ c = x := by
    intro gs idx x hinc hx
    induction hx with
    | nil => intro i c hn hc; cases hn; cases hc; exact ⟨rfl, rfl⟩
    | @cons g gs i is t ts e1 _ ih =>
      intro j c hn hc
      cases hn with | @cons _ _ j js _ _ n1 hn =>
      cases hc with | @cons _ _ _ _ c cs c1 hc =>
      obtain ⟨r1, r2⟩ := ih (fun g h => hinc g (List.mem_cons_of_mem _ h)) hn hc
      obtain ⟨p, hp, hmin⟩ := n1
      rw [c1] at hp
      injection hp with hp
      subst hp
      have hz := (hmin i t e1).1
      rw [sub_self, abs_zero] at hz
      have hct : t = c := by linarith [abs_nonpos_iff.1 hz]
      subst hct
      have hij : j = i := by
        have hi := hinc g List.mem_cons_self
        rcases Nat.lt_trichotomy j i with h | h | h
        · have := getElem?_lt hi c1 e1 h; linarith
        · exact h
        · have := getElem?_lt hi e1 c1 h; linarith
      subst hij
      exact ⟨by rw [r1], by rw [r2]⟩
  obtain ⟨r1, r2⟩ := huniq hg.increasing hx h2 h3
  rw [h1]
  cases n
  simp only at r1 r2 h4
  subst r1 r2 h4
  rfl

theorem double_two : Double 2 := ⟨2, 0, by norm_num, by norm_num⟩

/-- There is no double between 2 and `2 + 2^-51`. -/
theorem double_above_two {y : ℝ} (hy : Double y) (h : 2 < y) : 2 + 1 / 2 ^ 51 ≤ y := by
  obtain ⟨m, e, hm, rfl⟩ := hy
  have hp : (0 : ℝ) < (2 : ℝ) ^ e := zpow_pos (by norm_num) _
  have hm0 : (0 : ℝ) < m := by
    by_contra hc
    have := mul_nonpos_of_nonpos_of_nonneg (not_lt.1 hc) hp.le
    linarith
  have hm1 : (m : ℝ) < 2 ^ 53 := by exact_mod_cast lt_of_le_of_lt (le_abs_self m) hm
  have he : -51 ≤ e := by
    by_contra hc
    have h1 : (2 : ℝ) ^ e ≤ (2 : ℝ) ^ (-52 : ℤ) := zpow_le_zpow_right₀ (by norm_num) (by omega)
    have h2 : (m : ℝ) * (2 : ℝ) ^ e ≤ 2 ^ 53 * (2 : ℝ) ^ (-52 : ℤ) := mul_le_mul hm1.le h1 hp.le (by norm_num)
    norm_num at h2
    linarith
  obtain ⟨d, hd⟩ : ∃ d : Nat, e = (d : ℤ) - 51 := ⟨(e + 51).toNat, by omega⟩
  have hz : (2 : ℝ) ^ e = 2 ^ d / 2 ^ 51 := by
    rw [hd, zpow_sub₀ (by norm_num), zpow_natCast]
    norm_num
  rw [hz] at h ⊢
  have h3 : (2 : ℝ) ^ 52 < m * 2 ^ d := by
    have : (m : ℝ) * (2 ^ d / 2 ^ 51) = m * 2 ^ d / 2 ^ 51 := by ring
    rw [this, lt_div_iff₀ (by norm_num)] at h
    linarith
  have h4 : (2 : ℤ) ^ 52 < m * 2 ^ d := by exact_mod_cast h3
  have h5 : (2 : ℤ) ^ 52 + 1 ≤ m * 2 ^ d := h4
  have h6 : (2 : ℝ) ^ 52 + 1 ≤ m * 2 ^ d := by exact_mod_cast h5
  have : (m : ℝ) * (2 ^ d / 2 ^ 51) = m * 2 ^ d / 2 ^ 51 := by ring
  rw [this, le_div_iff₀ (by norm_num)]
  linarith

/-- Some rounding to nearest rounds `2 + 2^-52`, half way between two doubles, to the even one. -/
theorem exists_even : ∃ rnd, ToNearest rnd ∧ rnd (2 + 1 / 2 ^ 52) = 2 := by
  classical
  refine ⟨fun x => if x = 2 + 1 / 2 ^ 52 then 2 else roundNearest x, fun x => ?_, if_pos rfl⟩
  by_cases h : x = 2 + 1 / 2 ^ 52
  · simp only [h, if_true]
    refine ⟨double_two, fun y hy => ?_⟩
    rcases le_or_gt y 2 with h2 | h2
    · rw [abs_of_nonneg (by norm_num), abs_of_nonneg (by linarith [show (0 : ℝ) < 1 / 2 ^ 52 by norm_num])]
      linarith
    · have := double_above_two hy h2
      rw [abs_of_nonneg (by norm_num), abs_of_nonpos (by norm_num at this ⊢; linarith)]
      norm_num at this ⊢
      linarith
  · simp only [h, if_false]
    exact roundNearest_toNearest x

/-- C129 refuted for nodes as close as doubles can be: with the nodes 1 and `1 + 2^-52` and ties rounded to even, `Nearest` at the node 1 returns the other node. -/
theorem C129_refuted : ∃ rnd, ToNearest rnd ∧
    RGN.nearestR rnd (RGN.make 1 [[(1 : ℝ), 1 + 1 / 2 ^ 52]] ⟨[2], ["a", "b"]⟩).2 [1] = .ok ⟨[1], [1 + 1 / 2 ^ 52], "b"⟩ := by
  obtain ⟨rnd, hr, h2⟩ := exists_even
  refine ⟨rnd, hr, ?_⟩
  have hinc : ([1, 1 + 1 / 2 ^ 52] : List ℝ).Pairwise (· < ·) := by norm_num
  have hidx : RGN.nearestIndexR rnd [1, 1 + 1 / 2 ^ 52] 1 = .ok 1 := by
    obtain ⟨k, hk, hkl, hks⟩ := upperBound_spec (pairwise_lt_le hinc) (1 : ℝ)
    have hk1 : k = 1 := by
      have h0 : 0 < k := (hks 0 (by simp)).2 (by simp)
      have h1 : ¬ 1 < k := fun h => absurd ((hks 1 (by simp)).1 h) (by norm_num)
      omega
    subst hk1
    have hm : rnd (1 / 2 * rnd (1 + 1 / 2 ^ 52 + 1)) = 1 := by
      rw [show (1 + 1 / 2 ^ 52 + 1 : ℝ) = 2 + 1 / 2 ^ 52 by norm_num, h2, show (1 / 2 * 2 : ℝ) = 1 by norm_num, toNearest_double hr double_one]
    have hlast : ¬ ((1 : ℝ) + 1 / 2 ^ 52 ≤ 1) := by norm_num
    simp only [RGN.nearestIndexR, hk, vIdx, List.length_cons, List.length_nil, List.getElem?_cons_zero, List.getElem?_cons_succ, Res.ok_bind, lt_irrefl,
      if_false, hlast, hm, le_refl, if_true, zero_add, Nat.sub_self]
  rw [RGN.make_run (dim := 1) (grids := [[(1 : ℝ), 1 + 1 / 2 ^ 52]]) rfl]
  simp only [RGN.nearestR, RGN.nearestLoopR, hidx, Res.ok_bind]
  rfl

/-- The hypotheses of C129 are met: nodes 0, 1, 3 and 10, 20. -/
example : ∃ rnd, ToNearest rnd ∧
    RGN.nearestR rnd (RGN.make 2 [[(0 : ℝ), 1, 3], [10, 20]] ⟨[3, 2], ["a", "b", "c", "d", "e", "f"]⟩).2 [1, 20] = .ok ⟨[1, 1], [1, 20], "d"⟩ ∧
    ∃ n, RGN.nearestR rnd (RGN.make 2 [[(0 : ℝ), 1, 3], [10, 20]] ⟨[3, 2], ["a", "b", "c", "d", "e", "f"]⟩).2 [2, -7] = .ok n ∧
      NearestUpTo (2 * 20 / 2 ^ 53) [0, 1, 3] 2 (n.indices.getD 0 0) := by
  have hr := roundNearest_toNearest
  have hg : Axes [[(0 : ℝ), 1, 3], [10, 20]] := ⟨by simp, by simp, by simp; norm_num⟩
  have hH : Holds [3, 2] ["a", "b", "c", "d", "e", "f"] (fun idx => ["a", "b", "c", "d", "e", "f"].getD (idx.getD 0 0 * 2 + idx.getD 1 0) "") := by
    refine ⟨rfl, fun idx h => ?_⟩
    cases h with | @cons i _ is _ hi h => cases h with | @cons j _ js _ hj h => cases h with | nil =>
    have hi : i < 3 := hi
    have hj : j < 2 := hj
    interval_cases i <;> interval_cases j <;> rfl
  have hm := RGN.make_run (dim := 2) (grids := [[(0 : ℝ), 1, 3], [10, 20]]) rfl ⟨[3, 2], ["a", "b", "c", "d", "e", "f"]⟩
  refine ⟨_, hr, ?_, ?_⟩
  · rw [hm]
    refine C129_node_partial hr hg (a := ⟨[3, 2], ["a", "b", "c", "d", "e", "f"]⟩) rfl hH hm rfl ?_ (.cons rfl (.cons rfl .nil))
    intro g hgm k p q hp hq
    have hl := (List.getElem?_eq_some_iff.1 hq).1
    simp only [List.mem_cons, List.not_mem_nil, or_false] at hgm
    rcases hgm with rfl | rfl
    · have hl : k + 1 < 3 := hl
      have : k = 0 ∨ k = 1 := by omega
      rcases this with rfl | rfl <;> simp at hp hq <;> subst hp <;> subst hq <;> norm_num
    · have hl : k + 1 < 2 := hl
      have : k = 0 := by omega
      subst this
      simp at hp hq
      subst hp hq
      norm_num
  · rw [hm]
    obtain ⟨n, h1, h2, -, h4⟩ := C129_nearly hr hg (a := ⟨[3, 2], ["a", "b", "c", "d", "e", "f"]⟩) rfl hH hm rfl (B := 20) (by
      intro g hgm q hq
      simp only [List.mem_cons, List.not_mem_nil, or_false] at hgm
      rcases hgm with rfl | rfl
      · simp only [List.mem_cons, List.not_mem_nil, or_false] at hq
        rcases hq with rfl | rfl | rfl <;> norm_num
      · simp only [List.mem_cons, List.not_mem_nil, or_false] at hq
        rcases hq with rfl | rfl <;> norm_num) (x := [2, -7]) rfl
    refine ⟨n, h1, ?_⟩
    generalize n.indices = idx at h2 h4
    generalize n.coords = c at h2
    cases h2 with
    | @cons _ _ i _ _ _ _ _ => exact h4 0 [0, 1, 3] 2 i rfl rfl rfl

end rounded

end MU
