import Verif.Props.Simplex
import Verif.Lemmas.Lipschitz
import Verif.Lemmas.LinterpCube
import Mathlib.Tactic.Linarith
import Mathlib.Tactic.Ring
import Mathlib.Tactic.FieldSimp
import Mathlib.Tactic.IntervalCases

set_option linter.unusedSectionVars false

/-!
# C214: the two methods of interpolation on a grid compared

`NDInterp.interpSimplex sort t x` is `InterpSimplex::interp(x)` and `NDInterp.interpMultilinear t x` is `InterpMultilinear::interp(x)` on the same table.
-/

namespace MU
open Spec NDInterp

variable {K : Type} [Field K] [LinearOrder K] [IsStrictOrderedRing K]

/-- A coordinate at a node: no fraction is left, the lower index is that of the node. -/
theorem AxisRes_node {g : List K} (hg : g.Pairwise (· < ·)) {x y : K} {c : Int} {lo hi i : Nat} (h : AxisRes g x c y lo hi) (hi' : g[i]? = some x) :
    y = 0 ∧ lo = i := by
  have hil := (List.getElem?_eq_some_iff.mp hi').1
  cases h with
  | below a h0 hx => exact absurd (getElem?_le hg h0 hi' (Nat.zero_le _)) (not_le.mpr hx)
  | above b h0 hx =>
    refine ⟨rfl, ?_⟩
    by_contra hc
    exact absurd (getElem?_lt hg hi' h0 (by omega)) (not_lt.mpr hx)
  | inside k a b h0 h1 ha hb =>
    have h2 : i ≤ lo := by
      by_contra hc
      exact absurd (getElem?_le hg h1 hi' (by omega)) (not_le.mpr hb)
    have h3 : lo ≤ i := by
      by_contra hc
      exact absurd (getElem?_lt hg hi' h0 (by omega)) (not_lt.mpr ha)
    have h4 : lo = i := le_antisymm h3 h2
    subst h4
    rw [h0] at hi'
    cases hi'
    exact ⟨by simp, rfl⟩

theorem axesRes_nodes {gs : List (List K)} (hinc : ∀ g ∈ gs, g.Pairwise (· < ·)) {xs : List K} {cs : List Int} {ys : List K} {ws : List (Nat × Nat × K)}
    (h : AxesRes gs xs cs ys ws) {is : List Nat} (hn : IsNode gs is xs) :
    (∀ F : List Nat → K, cube ws F = F is) ∧ (∀ y ∈ ys, y = 0) ∧ ∀ u, Bits gs.length u → (∀ d, u.getD d 0 = 0) → sel ws u = is := by
  induction h generalizing is with
  | nil =>
    cases hn
    exact ⟨fun _ => rfl, by simp, fun u _ _ => by cases u <;> rfl⟩
  | @cons g gs x xs c cs y ys lo hi ws h1 h2 ih =>
    cases hn with
    | @cons _ _ i is _ _ hi hn =>
      obtain ⟨i1, i2, i3⟩ := ih (fun g' h' => hinc g' (by simp [h'])) hn
      obtain ⟨rfl, rfl⟩ := AxisRes_node (hinc g (by simp)) h1 hi
      refine ⟨fun F => by simp [cube, i1], by simpa using i2, fun u hu hz => ?_⟩
      cases u with
      | nil => simp [Bits] at hu
      | cons v u =>
        have hv : v = 0 := by simpa using hz 0
        subst hv
        simp only [sel, if_true]
        rw [i3 u ⟨by simpa using hu.1, fun w hw => hu.2 w (by simp [hw])⟩ (fun d => by simpa using hz (d + 1))]

/-- The resolution of a point whose coordinates, but that of one axis, are at nodes. -/
theorem axesRes_line {gB : List (List K)} {g : List K} {gA : List (List K)} (hinc : ∀ h ∈ gB ++ g :: gA, h.Pairwise (· < ·)) {xb xa : List K} {y : K} {ib ia : List Nat}
    (hb : IsNode gB ib xb) (ha : IsNode gA ia xa) {cs : List Int} {ys : List K} {ws : List (Nat × Nat × K)}
    (h : AxesRes (gB ++ g :: gA) (xb ++ y :: xa) cs ys ws) :
    ∃ c ξ lo hi, AxisRes g y c ξ lo hi ∧
      (∀ F : List Nat → K, cube ws F = F (ib ++ lo :: ia) + ξ * (F (ib ++ hi :: ia) - F (ib ++ lo :: ia))) ∧
      ys[gB.length]? = some ξ ∧ (∀ d η, d ≠ gB.length → ys[d]? = some η → η = 0) ∧
      ∀ u, Bits (gB ++ g :: gA).length u → (∀ d, d ≠ gB.length → u.getD d 0 = 0) →
        sel ws u = ib ++ (if u.getD gB.length 0 = 0 then lo else hi) :: ia := by
  induction hb generalizing cs ys ws with
  | nil =>
    cases h with
    | @cons _ _ _ _ c cs ξ ys lo hi ws h1 h2 =>
      obtain ⟨i1, i2, i3⟩ := axesRes_nodes (fun g' h' => hinc g' (by simp [h'])) h2 ha
      refine ⟨c, ξ, lo, hi, h1, fun F => by simp [cube, i1], by simp, fun d η hd he => ?_, fun u hu hz => ?_⟩
      · cases d with
        | zero => simp at hd
        | succ d => exact i2 η (List.mem_of_getElem? (by simpa using he))
      · cases u with
        | nil => simp [Bits] at hu
        | cons v u =>
          simp only [sel, List.nil_append, List.length_nil, List.getD_cons_zero]
          rw [i3 u ⟨by simpa using hu.1, fun w hw => hu.2 w (by simp [hw])⟩ (fun d => by simpa using hz (d + 1) (by simp))]
  | @cons g0 gB i ib x0 xb hi0 hb ih =>
    cases h with
    | @cons _ _ _ _ c0 cs y0 ys lo0 hi0' ws h1 h2 =>
      obtain ⟨c, ξ, lo, hi, e1, e2, e3, e4, e5⟩ := ih (fun g' h' => hinc g' (by simp at h' ⊢; tauto)) h2
      obtain ⟨rfl, rfl⟩ := AxisRes_node (hinc g0 (by simp)) h1 hi0
      refine ⟨c, ξ, lo, hi, e1, fun F => by simp [cube, e2], by simpa using e3, fun d η hd he => ?_, fun u hu hz => ?_⟩
      · cases d with
        | zero => simpa using he.symm
        | succ d => exact e4 d η (by simpa using hd) (by simpa using he)
      · cases u with
        | nil => simp [Bits] at hu
        | cons v u =>
          have hv : v = 0 := by simpa using hz 0 (by simp)
          subst hv
          simp only [sel, if_true, List.cons_append, List.length_cons, List.getD_cons_succ]
          rw [e5 u ⟨by simpa using hu.1, fun w hw => hu.2 w (by simp [hw])⟩ (fun d hd => by simpa using hz (d + 1) (by simpa using hd))]

/-- Terms of non-negative weights whose weighted bit vanishes have no weight or no bit. -/
theorem bit_zero {n : Nat} {L : List (K × List Int)} (hL : ∀ w ∈ L, 0 ≤ w.1 ∧ Bits n w.2) {d : Nat}
    (h0 : (L.map (fun w => w.1 * ((w.2.getD d 0 : Int) : K))).sum = 0) {w : K × List Int} (hw : w ∈ L) : w.1 = 0 ∨ w.2.getD d 0 = 0 := by
  have hnn : ∀ z ∈ L.map (fun w => w.1 * ((w.2.getD d 0 : Int) : K)), 0 ≤ z := by
    intro z hz
    obtain ⟨w', hw', rfl⟩ := List.mem_map.mp hz
    refine mul_nonneg (hL w' hw').1 ?_
    by_cases hd : d < w'.2.length
    · rw [List.getD, List.getElem?_eq_getElem hd, Option.getD_some]
      rcases (hL w' hw').2.2 _ (List.getElem_mem hd) with h | h <;> simp [h]
    · rw [List.getD, List.getElem?_eq_none (by omega)]; simp
  have hle := List.single_le_sum hnn _ (List.mem_map_of_mem (f := fun w => w.1 * ((w.2.getD d 0 : Int) : K)) hw)
  rw [h0] at hle
  rcases mul_eq_zero.mp (le_antisymm hle (hnn _ (List.mem_map_of_mem (f := fun w => w.1 * ((w.2.getD d 0 : Int) : K)) hw))) with h | h
  · exact .inl h
  · exact .inr (by exact_mod_cast h)

theorem getD_bit {n : Nat} {u : List Int} (h : Bits n u) (d : Nat) : u.getD d 0 = 0 ∨ u.getD d 0 = 1 := by
  by_cases hd : d < u.length
  · rw [List.getD, List.getElem?_eq_getElem hd, Option.getD_some]
    exact h.2 _ (List.getElem_mem hd)
  · rw [List.getD, List.getElem?_eq_none (by omega)]; exact .inl rfl

theorem line_values {gB : List (List K)} {g : List K} {gA : List (List K)} {values : List K} {F : List Nat → K} (hg : Axes (gB ++ g :: gA))
    (hF : Holds ((gB ++ g :: gA).map List.length) values F) {sort : List (K × Nat) → List (K × Nat)} (hsort : IsSort sort) {ib ia : List Nat} {xb xa : List K} (y : K)
    (hb : IsNode gB ib xb) (ha : IsNode gA ia xa) :
    ∃ c ξ lo hi, AxisRes g y c ξ lo hi ∧
      interpSimplex sort ⟨gB ++ g :: gA, values⟩ (xb ++ y :: xa) = .ok (F (ib ++ lo :: ia) + ξ * (F (ib ++ hi :: ia) - F (ib ++ lo :: ia))) ∧
      interpMultilinear ⟨gB ++ g :: gA, values⟩ (xb ++ y :: xa) = .ok (F (ib ++ lo :: ia) + ξ * (F (ib ++ hi :: ia) - F (ib ++ lo :: ia))) := by
  have hxl : (xb ++ y :: xa).length = (gB ++ g :: gA).length := by
    simp [isNode_len hb, isNode_len ha]
  obtain ⟨cs, ys, ws, hr, hw, hpos, he⟩ := simplex_terms hg hF hsort hxl
  obtain ⟨c, ξ, lo, hi, a1, a2, a3, a4, a5⟩ := axesRes_line hg.increasing hb ha hr
  obtain ⟨cs', ys', ws', hr', he'⟩ := interp_cube hg hF hxl
  obtain ⟨c', ξ', lo', hi', b1, b2, -, -, -⟩ := axesRes_line hg.increasing hb ha hr'
  obtain ⟨rfl, rfl, rfl⟩ := AxisRes.det (hg.increasing g (by simp)) a1 b1
  refine ⟨c, ξ, lo, hi, a1, ?_, by rw [he', b2]⟩
  rw [he]
  congr 1
  generalize hL : walkTerms (sort ys.zipIdx) 0 (List.replicate (gB ++ g :: gA).length 1) = L at hw hpos he
  have hs1 : (L.map (fun w => w.1)).sum = 1 := by
    rw [← hL, walkTerms_sum]; simp
  have hterm : ∀ w ∈ L, w.1 * F (sel ws w.2) =
      w.1 * F (ib ++ lo :: ia) + w.1 * ((w.2.getD gB.length 0 : Int) : K) * (F (ib ++ hi :: ia) - F (ib ++ lo :: ia)) := by
    intro w hwm
    by_cases hw0 : w.1 = 0
    · simp [hw0]
    have hu := (hw w hwm).2
    have hbits : ∀ d, d ≠ gB.length → w.2.getD d 0 = 0 := by
      intro d hd
      by_cases hdl : d < ys.length
      · have h0 := hpos d ys[d] (List.getElem?_eq_getElem _)
        rw [a4 d _ hd (List.getElem?_eq_getElem hdl)] at h0
        exact (bit_zero hw h0 hwm).resolve_left hw0
      · have : ¬ d < w.2.length := by
          rw [hu.1]
          have : ys.length = (gB ++ g :: gA).length := by rw [hr.length.2, List.length_map, hr.length.1]
          omega
        rw [List.getD, List.getElem?_eq_none (by omega)]; rfl
    rw [a5 w.2 hu hbits]
    rcases getD_bit hu gB.length with h | h <;> rw [h] <;> simp <;> ring
  rw [List.map_congr_left hterm, List.sum_map_add, List.sum_map_mul_right, List.sum_map_mul_right, hs1, hpos _ ξ a3]
  ring

/-- C214: at a point all of whose coordinates but one are those of nodes, wherever the other one lies (also outside the grid), the two methods give the same value. -/
theorem C214_lines {gB : List (List K)} {g : List K} {gA : List (List K)} {values : List K} {F : List Nat → K} (hg : Axes (gB ++ g :: gA))
    (hF : Holds ((gB ++ g :: gA).map List.length) values F) {t : NDInterp K} (ht : NDInterp.new (gB ++ g :: gA) values = .ok t)
    {sort : List (K × Nat) → List (K × Nat)} (hsort : IsSort sort) {ib ia : List Nat} {xb xa : List K} (y : K) (hb : IsNode gB ib xb) (ha : IsNode gA ia xa) :
    ∃ r, interpSimplex sort t (xb ++ y :: xa) = .ok r ∧ interpMultilinear t (xb ++ y :: xa) = .ok r := by
  have ht' : t = ⟨gB ++ g :: gA, values⟩ := by
    unfold NDInterp.new at ht
    rw [if_neg (by simpa using hF.size)] at ht
    cases ht; rfl
  subst ht'
  obtain ⟨_, _, _, _, _, h1, h2⟩ := line_values hg hF hsort y hb ha
  exact ⟨_, h1, h2⟩

/-- C214: between two consecutive nodes of a grid line, both methods give the value of the straight line through the data of these two nodes. -/
theorem C214_straight {gB : List (List K)} {g : List K} {gA : List (List K)} {values : List K} {F : List Nat → K} (hg : Axes (gB ++ g :: gA))
    (hF : Holds ((gB ++ g :: gA).map List.length) values F) {t : NDInterp K} (ht : NDInterp.new (gB ++ g :: gA) values = .ok t)
    {sort : List (K × Nat) → List (K × Nat)} (hsort : IsSort sort) {ib ia : List Nat} {xb xa : List K} {y a b : K} {c : Nat} (hb : IsNode gB ib xb) (ha : IsNode gA ia xa)
    (h0 : g[c]? = some a) (h1 : g[c + 1]? = some b) (hay : a ≤ y) (hyb : y ≤ b) :
    interpSimplex sort t (xb ++ y :: xa) = .ok (line a (F (ib ++ c :: ia)) b (F (ib ++ (c + 1) :: ia)) y) ∧
    interpMultilinear t (xb ++ y :: xa) = .ok (line a (F (ib ++ c :: ia)) b (F (ib ++ (c + 1) :: ia)) y) := by
  have ht' : t = ⟨gB ++ g :: gA, values⟩ := by
    unfold NDInterp.new at ht
    rw [if_neg (by simpa using hF.size)] at ht
    cases ht; rfl
  subst ht'
  have hgi := hg.increasing g (by simp)
  have hab : a < b := getElem?_lt hgi h0 h1 (by omega)
  obtain ⟨c', ξ, lo, hi, a1, e1, e2⟩ := line_values hg hF hsort y hb ha
  have key : F (ib ++ lo :: ia) + ξ * (F (ib ++ hi :: ia) - F (ib ++ lo :: ia)) = line a (F (ib ++ c :: ia)) b (F (ib ++ (c + 1) :: ia)) y := by
    rcases lt_or_eq_of_le hyb with h | h
    · obtain ⟨rfl, rfl, rfl⟩ := AxisRes.det hgi a1 (.inside c a b h0 h1 hay h)
      simp [line]
    · subst h
      obtain ⟨rfl, rfl⟩ := AxisRes_node hgi a1 h1
      simp [line, div_self (sub_ne_zero.2 hab.ne')]
  rw [e1, e2, key]
  exact ⟨rfl, rfl⟩

theorem tensor_between {grids : List (List K)} (hinc : ∀ g ∈ grids, g.Pairwise (· < ·)) {cell : List (Nat × K × K)} {x : List K} (hx : Brackets grids cell x) {m M : K} :
    ∀ {F : List Nat → K}, (∀ idx, VertexOf cell idx → m ≤ F idx ∧ F idx ≤ M) → m ≤ tensor cell F x ∧ tensor cell F x ≤ M := by
  induction hx with
  | nil => exact fun {F} h => h [] .nil
  | @cons g gs c a b cell x xs h0 h1 ha hb _ ih =>
    intro F h
    have hab : a < b := getElem?_lt (hinc g (by simp)) h0 h1 (by omega)
    obtain ⟨l1, l2⟩ := ih (fun g' h' => hinc g' (by simp [h'])) (F := fun is => F (c :: is)) (fun is hv => h _ (.cons (.inl rfl) hv))
    obtain ⟨u1, u2⟩ := ih (fun g' h' => hinc g' (by simp [h'])) (F := fun is => F ((c + 1) :: is)) (fun is hv => h _ (.cons (.inr rfl) hv))
    have hξ0 : 0 ≤ (x - a) / (b - a) := div_nonneg (by linarith) (by linarith)
    have hξ1 : (x - a) / (b - a) ≤ 1 := (div_le_one (by linarith)).2 (by linarith)
    simp only [tensor, line, smul_eq_mul]
    generalize (x - a) / (b - a) = ξ at hξ0 hξ1
    constructor <;> nlinarith

theorem convex_between {grids : List (List K)} {cell : List (Nat × K × K)} {F : List Nat → K} {x : List K} {r : K} (h : ConvexCombination grids cell F x r) {m M : K}
    (hm : ∀ idx, VertexOf cell idx → m ≤ F idx ∧ F idx ≤ M) : m ≤ r ∧ r ≤ M := by
  obtain ⟨terms, h1, h2, h3, -⟩ := h
  have key : ∀ L : List (K × List Nat × List K), (∀ t ∈ L, 0 ≤ t.1 ∧ VertexOf cell t.2.1) →
      m * (L.map (fun t => t.1)).sum ≤ (L.map (fun t => t.1 * F t.2.1)).sum ∧ (L.map (fun t => t.1 * F t.2.1)).sum ≤ M * (L.map (fun t => t.1)).sum := by
    intro L
    induction L with
    | nil => simp
    | cons t L ih =>
      intro hL
      obtain ⟨i1, i2⟩ := ih (fun t' h' => hL t' (by simp [h']))
      obtain ⟨p1, p2⟩ := hL t (by simp)
      obtain ⟨q1, q2⟩ := hm _ p2
      simp only [List.map_cons, List.sum_cons]
      constructor <;> nlinarith [mul_le_mul_of_nonneg_left q1 p1, mul_le_mul_of_nonneg_left q2 p1]
  obtain ⟨k1, k2⟩ := key terms (fun t ht => ⟨(h1 t ht).1, (h1 t ht).2.1⟩)
  rw [h2, h3, mul_one] at k1 k2
  exact ⟨k1, k2⟩

/-- C214: at every point of the grid the two methods differ by at most the spread of the data at the vertices of the cells that contain the point. -/
theorem C214_spread {grids : List (List K)} {values : List K} {F : List Nat → K} (hg : Axes grids) (h2 : ∀ g ∈ grids, 2 ≤ g.length)
    (hF : Holds (grids.map List.length) values F) {t : NDInterp K} (ht : NDInterp.new grids values = .ok t) {sort : List (K × Nat) → List (K × Nat)} (hsort : IsSort sort)
    {x : List K} (hx : InBox grids x) {δ : K}
    (hδ : ∀ cell idx idx', Brackets grids cell x → VertexOf cell idx → VertexOf cell idx' → |F idx - F idx'| ≤ δ) :
    ∃ r s, interpSimplex sort t x = .ok r ∧ interpMultilinear t x = .ok s ∧ |r - s| ≤ δ := by
  obtain ⟨r, cell, e, hb, hc⟩ := C23_convex_combination hg h2 hF ht hsort hx
  have ht' : t = ⟨grids, values⟩ := by
    unfold NDInterp.new at ht
    rw [if_neg (by simpa using hF.size)] at ht
    cases ht; rfl
  subst ht'
  obtain ⟨cs, ys, ws, hr, he⟩ := interp_cube hg hF (x := x) (inBox_len hx)
  rw [cube_tensor hg.increasing hr hb] at he
  refine ⟨r, _, e, he, ?_⟩
  -- the combination lies within δ of every vertex, hence of every combination of vertices
  have h1 : ∀ idx, VertexOf cell idx → F idx - δ ≤ r ∧ r ≤ F idx + δ := by
    intro idx hv
    refine convex_between hc (fun idx' hv' => ?_)
    have := abs_le.1 (hδ cell idx' idx hb hv' hv)
    constructor <;> linarith [this.1, this.2]
  have h3 := tensor_between hg.increasing hb (m := r - δ) (M := r + δ) (F := F) (fun idx hv => by
    obtain ⟨p, q⟩ := h1 idx hv
    constructor <;> linarith)
  rw [abs_le]
  constructor <;> linarith [h3.1, h3.2]

/-- C214: in two variables, the simplex method minus the bilinear one is the second mixed difference of the data of the cell times `min(ξ, η) - ξ η`, where `ξ` and `η` are the
relative positions of the point in the cell. -/
theorem C214_plane {g g' : List K} {values : List K} {F : List Nat → K} (hg : Axes [g, g'])
    (hF : Holds ([g, g'].map List.length) values F) {t : NDInterp K} (ht : NDInterp.new [g, g'] values = .ok t)
    {sort : List (K × Nat) → List (K × Nat)} (hsort : IsSort sort) {x y a b a' b' : K} {c c' : Nat} (hx : Brackets [g, g'] [(c, a, b), (c', a', b')] [x, y]) :
    ∃ r s, interpSimplex sort t [x, y] = .ok r ∧ interpMultilinear t [x, y] = .ok s ∧
      r - s = (F [c, c'] + F [c + 1, c' + 1] - F [c + 1, c'] - F [c, c' + 1]) *
        (min ((x - a) / (b - a)) ((y - a') / (b' - a')) - (x - a) / (b - a) * ((y - a') / (b' - a'))) := by
  have hinc := hg.increasing g (by simp)
  have hinc' := hg.increasing g' (by simp)
  cases hx with
  | cons h0 h1 hax hxb hx =>
  cases hx with
  | cons h0' h1' hay hyb hx =>
  have hab : a < b := getElem?_lt hinc h0 h1 (by omega)
  have hab' : a' < b' := getElem?_lt hinc' h0' h1' (by omega)
  have hn : ∀ {g : List K} {a b x : K}, a ≤ x → x ≤ b → a < b → 0 ≤ (x - a) / (b - a) ∧ (x - a) / (b - a) ≤ 1 := by
    intro g a b x p q r
    exact ⟨div_nonneg (by linarith) (by linarith), (div_le_one (by linarith)).2 (by linarith)⟩
  obtain ⟨p0, p1⟩ := hn (g := g) hax hxb hab
  obtain ⟨q0, q1⟩ := hn (g := g) hay hyb hab'
  rcases eq_or_lt_of_le hxb with hxe | hxl
  · -- on the upper side of the first axis
    have hnode : IsNode [g] [c + 1] [x] := .cons (by rw [hxe]; exact h1) .nil
    obtain ⟨r, e1, e2⟩ := C214_lines (gB := [g]) (g := g') (gA := []) hg hF ht hsort y hnode .nil
    refine ⟨r, r, e1, e2, ?_⟩
    subst hxe
    rw [div_self (sub_ne_zero.2 hab.ne'), min_eq_right q1]; ring
  rcases eq_or_lt_of_le hyb with hye | hyl
  · have hnode : IsNode [g'] [c' + 1] [y] := .cons (by rw [hye]; exact h1') .nil
    obtain ⟨r, e1, e2⟩ := C214_lines (gB := []) (g := g) (gA := [g']) hg hF ht hsort x .nil hnode
    refine ⟨r, r, e1, e2, ?_⟩
    subst hye
    rw [div_self (sub_ne_zero.2 hab'.ne'), min_eq_left p1]; ring
  have ht' : t = ⟨[g, g'], values⟩ := by
    unfold NDInterp.new at ht
    rw [if_neg (by simpa using hF.size)] at ht
    cases ht; rfl
  subst ht'
  obtain ⟨cs, ys, ws, hr, hw, hpos, he⟩ := simplex_terms hg hF hsort (x := [x, y]) rfl
  obtain ⟨cs', ys', ws', hr', he'⟩ := interp_cube hg hF (x := [x, y]) rfl
  rw [cube_tensor hg.increasing hr' (.cons h0 h1 hax hxb (.cons h0' h1' hay hyb .nil))] at he'
  refine ⟨_, _, he, he', ?_⟩
  cases hr with
  | cons k1 k2 =>
  cases k2 with
  | cons k2 k3 =>
  cases k3
  obtain ⟨rfl, rfl, rfl⟩ := AxisRes.det hinc k1 (.inside c a b h0 h1 hax hxl)
  obtain ⟨rfl, rfl, rfl⟩ := AxisRes.det hinc' k2 (.inside c' a' b' h0' h1' hay hyl)
  obtain ⟨hperm, hsrt⟩ := hsort [((x - a) / (b - a), 0), ((y - a') / (b' - a'), 1)]
  simp only [tensor, line, smul_eq_mul, List.zipIdx_cons, List.zipIdx_nil, Nat.zero_add]
  generalize (x - a) / (b - a) = ξ at *
  generalize (y - a') / (b' - a') = η at *
  generalize hS : sort [(ξ, 0), (η, 1)] = S at *
  match S, hperm.length_eq with
  | [u, v], _ =>
    have huv : u.1 ≤ v.1 := by simpa using hsrt
    have hu : u = (ξ, 0) ∧ v = (η, 1) ∨ u = (η, 1) ∧ v = (ξ, 0) := by
      have m1 : u = (ξ, 0) ∨ u = (η, 1) := by simpa using hperm.subset (show u ∈ [u, v] by simp)
      rcases m1 with rfl | rfl
      · exact .inl ⟨rfl, by simpa using (List.perm_cons _).1 hperm⟩
      · have : List.Perm [(η, 1), v] [(η, 1), (ξ, 0)] := hperm.trans (List.Perm.swap _ _ _)
        exact .inr ⟨rfl, by simpa using (List.perm_cons _).1 this⟩
    rcases hu with ⟨rfl, rfl⟩ | ⟨rfl, rfl⟩
    · rw [min_eq_left huv]
      simp [walkTerms, sel, List.replicate]
      ring
    · rw [min_eq_right huv]
      simp [walkTerms, sel, List.replicate]
      ring

/-- C214: in two variables, where the second mixed difference of the data of the cell is not negative the simplex method gives at least the bilinear value (at most, where it is
not positive), and they are never further apart than a quarter of that difference. -/
theorem C214_order {g g' : List K} {values : List K} {F : List Nat → K} (hg : Axes [g, g'])
    (hF : Holds ([g, g'].map List.length) values F) {t : NDInterp K} (ht : NDInterp.new [g, g'] values = .ok t)
    {sort : List (K × Nat) → List (K × Nat)} (hsort : IsSort sort) {x y a b a' b' : K} {c c' : Nat} (hx : Brackets [g, g'] [(c, a, b), (c', a', b')] [x, y]) {D : K}
    (hD : D = F [c, c'] + F [c + 1, c' + 1] - F [c + 1, c'] - F [c, c' + 1]) :
    ∃ r s, interpSimplex sort t [x, y] = .ok r ∧ interpMultilinear t [x, y] = .ok s ∧ (0 ≤ D → s ≤ r) ∧ (D ≤ 0 → r ≤ s) ∧ |r - s| ≤ |D| / 4 := by
  obtain ⟨r, s, e1, e2, e3⟩ := C214_plane hg hF ht hsort hx
  refine ⟨r, s, e1, e2, ?_⟩
  rw [← hD] at e3
  have hinc := hg.increasing g (by simp)
  have hinc' := hg.increasing g' (by simp)
  cases hx with
  | cons h0 h1 hax hxb hx =>
  cases hx with
  | cons h0' h1' hay hyb hx =>
  have hab : a < b := getElem?_lt hinc h0 h1 (by omega)
  have hab' : a' < b' := getElem?_lt hinc' h0' h1' (by omega)
  have p0 : 0 ≤ (x - a) / (b - a) := div_nonneg (by linarith) (by linarith)
  have p1 : (x - a) / (b - a) ≤ 1 := (div_le_one (by linarith)).2 (by linarith)
  have q0 : 0 ≤ (y - a') / (b' - a') := div_nonneg (by linarith) (by linarith)
  have q1 : (y - a') / (b' - a') ≤ 1 := (div_le_one (by linarith)).2 (by linarith)
  generalize (x - a) / (b - a) = ξ at *
  generalize (y - a') / (b' - a') = η at *
  have hk : 0 ≤ min ξ η - ξ * η ∧ min ξ η - ξ * η ≤ 1 / 4 := by
    rcases le_total ξ η with h | h
    · rw [min_eq_left h]
      constructor <;> nlinarith [sq_nonneg (ξ - 1 / 2), mul_nonneg p0 (sub_nonneg.2 h), mul_nonneg p0 (sub_nonneg.2 q1)]
    · rw [min_eq_right h]
      constructor <;> nlinarith [sq_nonneg (η - 1 / 2), mul_nonneg q0 (sub_nonneg.2 h), mul_nonneg q0 (sub_nonneg.2 p1)]
  obtain ⟨k0, k1⟩ := hk
  generalize min ξ η - ξ * η = κ at *
  refine ⟨fun h => by nlinarith [mul_nonneg h k0], fun h => by nlinarith [mul_nonneg (neg_nonneg.2 h) k0], ?_⟩
  rw [e3, abs_mul, abs_of_nonneg k0]
  nlinarith [abs_nonneg D]

/-! ## Non-vacuity -/

/-- At the centre of the square of data 1, 2, 3, 5 the two methods differ, by a quarter of the second mixed difference: 3 and 11/4. -/
example : ∃ sort : List (ℚ × Nat) → List (ℚ × Nat), IsSort sort ∧
    ∃ r s, interpSimplex sort ⟨[[0, 1], [0, 2]], [1, 2, 3, 5]⟩ [1 / 2, 1] = .ok r ∧ interpMultilinear ⟨[[0, 1], [0, 2]], [1, 2, 3, 5]⟩ [1 / 2, 1] = .ok s ∧ r - s = 1 / 4 := by
  obtain ⟨sort, hs⟩ := exists_sort
  obtain ⟨r, s, e1, e2, e3⟩ := C214_plane simplexGrid simplexHolds (t := ⟨[[0, 1], [0, 2]], [1, 2, 3, 5]⟩) (by simp [NDInterp.new]) hs (x := 1 / 2) (y := 1)
    (a := 0) (b := 1) (a' := 0) (b' := 2) (c := 0) (c' := 0)
    (.cons rfl rfl (by norm_num) (by norm_num) (.cons rfl rfl (by norm_num) (by norm_num) .nil))
  refine ⟨sort, hs, r, s, e1, e2, ?_⟩
  rw [e3]
  norm_num [pos]

/-- On the side of the square the two methods agree, wherever the other coordinate lies. -/
example (y : ℚ) : ∃ sort : List (ℚ × Nat) → List (ℚ × Nat), IsSort sort ∧
    ∃ r, interpSimplex sort ⟨[[0, 1], [0, 2]], [1, 2, 3, 5]⟩ [1, y] = .ok r ∧ interpMultilinear ⟨[[0, 1], [0, 2]], [1, 2, 3, 5]⟩ [1, y] = .ok r := by
  obtain ⟨sort, hs⟩ := exists_sort
  exact ⟨sort, hs, C214_lines (gB := [[0, 1]]) (gA := []) (ib := [1]) (xb := [1]) simplexGrid simplexHolds (by simp [NDInterp.new]) hs y (.cons rfl .nil) .nil⟩

/-- A point between the nodes of a side. -/
example : ∃ sort : List (ℚ × Nat) → List (ℚ × Nat), IsSort sort ∧
    interpSimplex sort ⟨[[0, 1], [0, 2]], [1, 2, 3, 5]⟩ [1, 1 / 2] = .ok (line (K := ℚ) (Y := ℚ) 0 3 2 5 (1 / 2)) := by
  obtain ⟨sort, hs⟩ := exists_sort
  exact ⟨sort, hs, (C214_straight (gB := [[0, 1]]) (gA := []) (ib := [1]) (xb := [1]) (c := 0) (a := 0) (b := 2) (y := 1 / 2) simplexGrid simplexHolds
    (t := ⟨[[0, 1], [0, 2]], [1, 2, 3, 5]⟩) (by simp [NDInterp.new]) hs (.cons rfl .nil) .nil rfl rfl (by norm_num) (by norm_num)).1⟩

/-- The second mixed difference 1 of these data is positive: the simplex method gives at least the bilinear value, by a quarter at most. -/
example (x y : ℚ) (hx : 0 ≤ x) (hx' : x ≤ 1) (hy : 0 ≤ y) (hy' : y ≤ 2) : ∃ sort : List (ℚ × Nat) → List (ℚ × Nat), IsSort sort ∧
    ∃ r s, interpSimplex sort ⟨[[0, 1], [0, 2]], [1, 2, 3, 5]⟩ [x, y] = .ok r ∧ interpMultilinear ⟨[[0, 1], [0, 2]], [1, 2, 3, 5]⟩ [x, y] = .ok s ∧ s ≤ r ∧ |r - s| ≤ 1 / 4 := by
  obtain ⟨sort, hs⟩ := exists_sort
  obtain ⟨r, s, e1, e2, e3, -, e5⟩ := C214_order simplexGrid simplexHolds (t := ⟨[[0, 1], [0, 2]], [1, 2, 3, 5]⟩) (by simp [NDInterp.new]) hs (x := x) (y := y)
    (a := 0) (b := 1) (a' := 0) (b' := 2) (c := 0) (c' := 0) (D := 1) (.cons rfl rfl hx hx' (.cons rfl rfl hy hy' .nil)) (by norm_num [pos])
  exact ⟨sort, hs, r, s, e1, e2, e3 (by norm_num), by simpa using e5⟩

/-- The data of this square spread over 4. -/
example : ∃ sort : List (ℚ × Nat) → List (ℚ × Nat), IsSort sort ∧
    ∃ r s, interpSimplex sort ⟨[[0, 1], [0, 2]], [1, 2, 3, 5]⟩ [1 / 2, 1] = .ok r ∧ interpMultilinear ⟨[[0, 1], [0, 2]], [1, 2, 3, 5]⟩ [1 / 2, 1] = .ok s ∧ |r - s| ≤ 4 := by
  obtain ⟨sort, hs⟩ := exists_sort
  refine ⟨sort, hs, C214_spread simplexGrid (by simp) simplexHolds (by simp [NDInterp.new]) hs
    (.cons (a := 0) (b := 1) rfl rfl (by norm_num) (by norm_num) (.cons (a := 0) (b := 2) rfl rfl (by norm_num) (by norm_num) .nil)) ?_⟩
  intro cell idx idx' hb hv hv'
  have hF : ∀ i, (1 : ℚ) ≤ ([1, 2, 3, 5] : List ℚ).getD (i % 4) 0 ∧ ([1, 2, 3, 5] : List ℚ).getD (i % 4) 0 ≤ 5 := by
    intro i
    have : i % 4 < 4 := Nat.mod_lt _ (by norm_num)
    generalize i % 4 = k at this
    interval_cases k <;> norm_num
  have hin : ∀ idx, VertexOf cell idx → (pos [2, 2] idx) % 4 = pos [2, 2] idx := by
    intro idx hv
    cases hb with
    | @cons _ _ c _ _ cell _ _ _ h1 _ _ hb =>
    cases hb with
    | @cons _ _ c' _ _ cell _ _ _ h1' _ _ hb =>
    cases hb
    cases hv with
    | cons p hv =>
    cases hv with
    | cons q hv =>
    cases hv
    have hc : c + 1 < 2 := (List.getElem?_eq_some_iff.mp h1).1
    have hc' : c' + 1 < 2 := (List.getElem?_eq_some_iff.mp h1').1
    simp only at p q
    simp [pos]
    omega
  have a1 := hF (pos [2, 2] idx)
  have a2 := hF (pos [2, 2] idx')
  rw [hin idx hv] at a1
  rw [hin idx' hv'] at a2
  rw [abs_le]
  constructor <;> linarith [a1.1, a1.2, a2.1, a2.2]

end MU
