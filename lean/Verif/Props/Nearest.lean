import Verif.Lemmas.Nearest
import Mathlib.Algebra.Order.Ring.Rat
import Mathlib.Tactic.NormNum

set_option linter.unusedSectionVars false

/-!
# C24–C26: RegularGridNearest

`RGN.make dim grids a` is the program that constructs an object, adds the axes one by one and then the array; `RGN.nearest s x` is `Nearest(x)`
and `RGN.surrounding s x` is `GetSurroundingGridNodes(x)`.
-/

namespace MU
open Spec NDInterp

variable {K D : Type} [Field K] [LinearOrder K] [IsStrictOrderedRing K]

/-- C24: at any point (inside or outside the grid) `Nearest` returns, on each axis, the index of a nearest node, the upper one when two nodes
are at the same distance, with the coordinates of that node and the array element at these indices. -/
theorem C24_nearest {dim : Nat} {grids : List (List K)} (hg : Axes grids) {a : NDArray D} {F : List Nat → D}
    (hsh : a.shape = grids.map List.length) (hF : Holds a.shape a.elems F) {s : RGN K D} (hs : RGN.make dim grids a = (.ok (), s))
    (hd : grids.length = dim) {x : List K} (hx : x.length = dim) :
    ∃ n, RGN.nearest s x = .ok n ∧ Nearest grids n.indices x ∧ IsNode grids n.indices n.coords ∧ n.val = F n.indices := by
  rw [RGN.make_run hd a] at hs
  cases hs
  obtain ⟨idx, p, h1, h2, h3⟩ := RGN.nearestLoop_spec hg.nonempty hg.increasing (hx.trans hd.symm)
  have hr := RGN.mdRead_holds hF (hsh ▸ isNode_inside h3)
  exact ⟨⟨idx, p, F idx⟩, by simp [RGN.nearest, h1, hr], h2, h3, rfl⟩

/-- The nodes returned when every index lies in the grid. -/
theorem surrounding_nodes {grids : List (List K)} {a : NDArray D} {F : List Nat → D}
    (hsh : a.shape = grids.map List.length) (hF : Holds a.shape a.elems F) {cs : List Nat} {x : List K}
    (hc : RGN.surroundingLoop grids x = .ok cs) (I : Nat → List Nat)
    (hI : ∀ v, RGN.nodeIndices grids cs (RGN.vertexBits grids.length v) = I v)
    (hN : ∀ v, ∃ p, RGN.nodeCoords grids (I v) = .ok p ∧ IsNode grids (I v) p) :
    ∃ nodes, RGN.surrounding ⟨grids, a⟩ x = .ok nodes ∧ nodes.map (·.indices) = (List.range (2 ^ grids.length)).map I ∧
      ∀ n ∈ nodes, IsNode grids n.indices n.coords ∧ n.val = F n.indices := by
  choose p hp1 hp2 using hN
  have hloop := forRange_ok (lo := 0) (hi := 1 <<< grids.length) (Nat.zero_le _)
    (f := fun v nodes => do
      let n ← RGN.getNode (⟨grids, a⟩ : RGN K D) cs v
      return nodes ++ [n]) (fun k => (List.range k).map (fun v => (⟨I v, p v, F (I v)⟩ : GridNode K D))) (by
      intro i _ _
      have hr := RGN.mdRead_holds hF (hsh ▸ isNode_inside (hp2 i))
      simp only [RGN.getNode, hI, hp1, Res.ok_bind, hr]
      simp [List.range_succ])
  refine ⟨(List.range (2 ^ grids.length)).map (fun v => ⟨I v, p v, F (I v)⟩), ?_, ?_, ?_⟩
  · unfold RGN.surrounding
    simp only [hc, Res.ok_bind]
    rw [Nat.shiftLeft_eq, Nat.one_mul] at hloop ⊢
    exact hloop
  · simp [Function.comp_def]
  · intro n hn
    obtain ⟨v, _, rfl⟩ := List.mem_map.mp hn
    exact ⟨hp2 v, rfl⟩

/-- C25: for a point of the box (each coordinate at least the first and less than the last node) `GetSurroundingGridNodes` returns `2^dim`
nodes: each vertex of a cell containing the point, exactly once, with its coordinates and its datum. Axes of at most `2^32` nodes (the code
stores indices in an `unsigned int`). -/
theorem C25_surrounding_inside {dim : Nat} {grids : List (List K)} (hg : Axes grids) (hsz : ∀ g ∈ grids, g.length ≤ 2 ^ 32)
    {a : NDArray D} {F : List Nat → D} (hsh : a.shape = grids.map List.length) (hF : Holds a.shape a.elems F) {s : RGN K D}
    (hs : RGN.make dim grids a = (.ok (), s)) (hd : grids.length = dim) {x : List K} (hx : InHalfOpenBox grids x) :
    ∃ nodes cell, RGN.surrounding s x = .ok nodes ∧ Brackets grids cell x ∧ nodes.length = 2 ^ dim ∧
      (nodes.map (·.indices)).Nodup ∧ (∀ idx, idx ∈ nodes.map (·.indices) ↔ VertexOf cell idx) ∧
      ∀ n ∈ nodes, IsNode grids n.indices n.coords ∧ n.val = F n.indices := by
  rw [RGN.make_run hd a] at hs
  cases hs
  obtain ⟨cs, ws, cell, h1, h2⟩ := RGN.surroundingLoop_inside hg.increasing hsz hx
  obtain ⟨nodes, e1, e2, e3⟩ := surrounding_nodes hsh hF h1 (pickIdx ws) (fun v => h2.indices v) (fun v => h2.isNode v)
  have hlen : nodes.length = 2 ^ dim := by
    have := congrArg List.length e2
    simpa [hd] using this
  refine ⟨nodes, cell, e1, h2.brackets, hlen, ?_, ?_, e3⟩
  · rw [e2]
    refine List.Nodup.map_on ?_ List.nodup_range
    intro v hv v' hv' he
    rw [List.mem_range, ← h2.wlen] at hv hv'
    obtain ⟨u, _, _, hu⟩ := h2.unique (h2.vertex v)
    rw [hu v hv rfl, hu v' hv' he.symm]
  · intro idx
    rw [e2]
    constructor
    · intro h
      obtain ⟨v, _, rfl⟩ := List.mem_map.mp h
      exact h2.vertex v
    · intro h
      obtain ⟨v, hv, rfl, _⟩ := h2.unique h
      exact List.mem_map.mpr ⟨v, by rw [List.mem_range, ← h2.wlen]; exact hv, rfl⟩

/-! ## C26: points outside the grid -/

/-- The indices selected on one axis, for any coordinate. -/
inductive SurrRes (g : List K) (x : K) : Nat → Nat → Nat → Prop
  | below (a : K) : g.head? = some a → x < a → SurrRes g x (2 ^ 32 - 1) (g.length - 1) (g.length - 1)
  | above (b : K) : g.getLast? = some b → b ≤ x → SurrRes g x (g.length - 1) (g.length - 1) (g.length - 1)
  | inside (c : Nat) (p q : K) : g[c]? = some p → g[c + 1]? = some q → p ≤ x → x < q → SurrRes g x c c (c + 1)

theorem surroundingIndex_any {g : List K} (hne : g ≠ []) (hinc : g.Pairwise (· < ·)) (hsz : g.length ≤ 2 ^ 32) (x : K) :
    ∃ c lo hi, RGN.surroundingIndex g x = .ok c ∧ SurrRes g x c lo hi := by
  have hl : 0 < g.length := List.length_pos_of_ne_nil hne
  have ha : g.head? = some g[0] := by rw [List.head?_eq_getElem?]; exact List.getElem?_eq_getElem _
  have hb : g.getLast? = some g[g.length - 1] := by rw [List.getLast?_eq_getElem?]; exact List.getElem?_eq_getElem _
  by_cases h1 : x < g[0]
  · refine ⟨_, _, _, ?_, .below _ ha h1⟩
    unfold RGN.surroundingIndex
    rw [vIdx_lt hl]; simp [h1]
  · by_cases h2 : g[g.length - 1] ≤ x
    · refine ⟨_, _, _, ?_, .above _ hb h2⟩
      unfold RGN.surroundingIndex
      rw [vIdx_lt hl, vIdx_lt (show g.length - 1 < g.length by omega)]
      simp only [Res.ok_bind, h1, h2, if_false, if_true]
      rw [Nat.mod_eq_of_lt (by omega)]
    · obtain ⟨c, p, q, e1, e2, e3, e4, e5⟩ := RGN.surroundingIndex_inside hinc hsz ha hb (not_lt.mp h1) (not_le.mp h2)
      exact ⟨_, _, _, e1, .inside c p q e2 e3 e4 e5⟩

inductive SurrAll : (grids : List (List K)) → (x : List K) → List Nat → List (Nat × Nat × K) → Prop
  | nil : SurrAll [] [] [] []
  | cons {g gs x xs c lo hi cs ws} : SurrRes g x c lo hi → g ≠ [] → g.length ≤ 2 ^ 32 → SurrAll gs xs cs ws →
      SurrAll (g :: gs) (x :: xs) (c :: cs) ((lo, hi, 0) :: ws)

theorem surroundingLoop_any {grids : List (List K)} (hne : ∀ g ∈ grids, g ≠ []) (hinc : ∀ g ∈ grids, g.Pairwise (· < ·))
    (hsz : ∀ g ∈ grids, g.length ≤ 2 ^ 32) {x : List K} (hx : x.length = grids.length) :
    ∃ cs ws, RGN.surroundingLoop grids x = .ok cs ∧ SurrAll grids x cs ws := by
  induction grids generalizing x with
  | nil =>
    cases x with
    | nil => exact ⟨[], [], rfl, .nil⟩
    | cons a t => simp at hx
  | cons g gs ih =>
    cases x with
    | nil => simp at hx
    | cons x xs =>
      obtain ⟨c, lo, hi, h1, h2⟩ := surroundingIndex_any (hne g (by simp)) (hinc g (by simp)) (hsz g (by simp)) x
      obtain ⟨cs, ws, i1, i2⟩ := ih (fun g' h' => hne g' (by simp [h'])) (fun g' h' => hinc g' (by simp [h']))
        (fun g' h' => hsz g' (by simp [h'])) (x := xs) (by simpa using hx)
      exact ⟨c :: cs, (lo, hi, 0) :: ws, by simp [RGN.surroundingLoop, h1, i1], .cons h2 (hne g (by simp)) (hsz g (by simp)) i2⟩

theorem SurrAll.indices {grids : List (List K)} {x : List K} {cs : List Nat} {ws : List (Nat × Nat × K)}
    (h : SurrAll grids x cs ws) (v : Nat) :
    RGN.nodeIndices grids cs (RGN.vertexBits grids.length v) = pickIdx ws v ∧ ws.length = grids.length := by
  induction h with
  | nil => exact ⟨rfl, rfl⟩
  | @cons g gs x xs c lo hi cs ws h1 hne h5 h6 ih =>
    refine ⟨?_, by simp [ih.2]⟩
    rw [List.length_cons, RGN.vertexBits_succ]
    simp only [RGN.nodeIndices, pickIdx]
    have hl : 0 < g.length := List.length_pos_of_ne_nil hne
    rw [ih.1, ih.2, usub_of_le (by omega) (by omega)]
    congr 1
    cases h1 with
    | below a _ _ => simp; omega
    | above b _ _ => simp
    | inside _ p q h2 h3 _ _ =>
      have hl := (List.getElem?_eq_some_iff.mp h3).1
      rcases Nat.mod_two_eq_zero_or_one (v / 2 ^ gs.length) with hm | hm
      · rw [hm]; simp; omega
      · rw [hm]; simp; omega

theorem SurrAll.isNode {grids : List (List K)} {x : List K} {cs : List Nat} {ws : List (Nat × Nat × K)}
    (h : SurrAll grids x cs ws) (v : Nat) :
    ∃ p, RGN.nodeCoords grids (pickIdx ws v) = .ok p ∧ IsNode grids (pickIdx ws v) p := by
  induction h with
  | nil => exact ⟨[], rfl, .nil⟩
  | @cons g gs x xs c lo hi cs ws h1 hne h5 h6 ih =>
    obtain ⟨r, i1, i2⟩ := ih
    have hl : 0 < g.length := List.length_pos_of_ne_nil hne
    have hlo : lo < g.length ∧ hi < g.length := by
      cases h1 with
      | below a _ _ => omega
      | above b _ _ => omega
      | inside _ p q h2 h3 _ _ =>
        have hl := (List.getElem?_eq_some_iff.mp h3).1
        omega
    simp only [pickIdx, RGN.nodeCoords]
    split_ifs
    · exact ⟨g[lo] :: r, by simp [vIdx_lt hlo.1, i1], .cons (List.getElem?_eq_getElem _) i2⟩
    · exact ⟨g[hi] :: r, by simp [vIdx_lt hlo.2, i1], .cons (List.getElem?_eq_getElem _) i2⟩

theorem SurrAll.outside {grids : List (List K)} {x : List K} {cs : List Nat} {ws : List (Nat × Nat × K)}
    (hinc : ∀ g ∈ grids, g.Pairwise (· < ·))
    (h : SurrAll grids x cs ws) (v d : Nat) {g : List K} {y : K} (hg : grids[d]? = some g) (hy : x[d]? = some y)
    (hout : (∃ a, g.head? = some a ∧ y < a) ∨ ∃ b, g.getLast? = some b ∧ b ≤ y) : (pickIdx ws v)[d]? = some (g.length - 1) := by
  induction h generalizing d with
  | nil => simp at hg
  | @cons g' gs x xs c lo hi cs ws h1 hne h5 h6 ih =>
    cases d with
    | succ d => simpa [pickIdx] using ih (fun g' h' => hinc g' (by simp [h'])) d (by simpa using hg) (by simpa using hy)
    | zero =>
      simp at hg hy
      subst hg hy
      have : lo = g'.length - 1 ∧ hi = g'.length - 1 := by
        cases h1 with
        | below a _ _ => simp
        | above b _ _ => simp
        | inside _ p q h2 h3 h4 h5 =>
          exfalso
          have hinc' := hinc g' (by simp)
          have hl3 := (List.getElem?_eq_some_iff.mp h3).1
          rcases hout with ⟨a, ha, hlt⟩ | ⟨b, hb, hle⟩
          · rw [List.head?_eq_getElem?] at ha
            exact absurd (getElem?_le hinc' ha h2 (Nat.zero_le _)) (not_le.mpr (lt_of_le_of_lt h4 hlt))
          · rw [List.getLast?_eq_getElem?] at hb
            exact absurd (getElem?_le hinc' h3 hb (by omega)) (not_le.mpr (lt_of_le_of_lt hle h5))
      simp [pickIdx, this.1, this.2]

/-- C26, the part that holds: on an axis whose last node is at most the coordinate, every returned node has the last index. The other side is
false: see `C26_below_returns_last` and `C26_refuted`. -/
theorem C26_above_partial {dim : Nat} {grids : List (List K)} (hg : Axes grids) (hsz : ∀ g ∈ grids, g.length ≤ 2 ^ 32)
    {a : NDArray D} {F : List Nat → D} (hsh : a.shape = grids.map List.length) (hF : Holds a.shape a.elems F) {s : RGN K D}
    (hs : RGN.make dim grids a = (.ok (), s)) (hd : grids.length = dim) {x : List K} (hx : x.length = dim) :
    ∃ nodes, RGN.surrounding s x = .ok nodes ∧ nodes.length = 2 ^ dim ∧
      ∀ n ∈ nodes, IsNode grids n.indices n.coords ∧ n.val = F n.indices ∧
        ∀ (d : Nat) (g : List K) (y b : K), grids[d]? = some g → x[d]? = some y → g.getLast? = some b → b ≤ y → n.indices[d]? = some (g.length - 1) := by
  rw [RGN.make_run hd a] at hs
  cases hs
  obtain ⟨cs, ws, h1, h2⟩ := surroundingLoop_any hg.nonempty hg.increasing hsz (hx.trans hd.symm)
  obtain ⟨nodes, e1, e2, e3⟩ := surrounding_nodes hsh hF h1 (pickIdx ws) (fun v => (h2.indices v).1) (fun v => h2.isNode v)
  refine ⟨nodes, e1, by simpa [hd] using congrArg List.length e2, fun n hn => ⟨(e3 n hn).1, (e3 n hn).2, fun d g y b hgd hy hb hle => ?_⟩⟩
  have : n.indices ∈ (List.range (2 ^ grids.length)).map (pickIdx ws) := e2 ▸ List.mem_map_of_mem hn
  obtain ⟨v, _, hv⟩ := List.mem_map.mp this
  rw [← hv]
  exact h2.outside hg.increasing v d hgd hy (.inr ⟨b, hb, hle⟩)

/-- What happens below the grid, for every grid and every point: on an axis whose first node is above the coordinate, every returned node has
the *last* index. -/
theorem C26_below_returns_last {dim : Nat} {grids : List (List K)} (hg : Axes grids) (hsz : ∀ g ∈ grids, g.length ≤ 2 ^ 32)
    {a : NDArray D} {F : List Nat → D} (hsh : a.shape = grids.map List.length) (hF : Holds a.shape a.elems F) {s : RGN K D}
    (hs : RGN.make dim grids a = (.ok (), s)) (hd : grids.length = dim) {x : List K} (hx : x.length = dim) :
    ∃ nodes, RGN.surrounding s x = .ok nodes ∧ nodes.length = 2 ^ dim ∧
      ∀ n ∈ nodes, ∀ (d : Nat) (g : List K) (y b : K), grids[d]? = some g → x[d]? = some y → g.head? = some b → y < b → n.indices[d]? = some (g.length - 1) := by
  rw [RGN.make_run hd a] at hs
  cases hs
  obtain ⟨cs, ws, h1, h2⟩ := surroundingLoop_any hg.nonempty hg.increasing hsz (hx.trans hd.symm)
  obtain ⟨nodes, e1, e2, e3⟩ := surrounding_nodes hsh hF h1 (pickIdx ws) (fun v => (h2.indices v).1) (fun v => h2.isNode v)
  refine ⟨nodes, e1, by simpa [hd] using congrArg List.length e2, fun n hn d g y b hgd hy hb hle => ?_⟩
  have : n.indices ∈ (List.range (2 ^ grids.length)).map (pickIdx ws) := e2 ▸ List.mem_map_of_mem hn
  obtain ⟨v, _, hv⟩ := List.mem_map.mp this
  rw [← hv]
  exact h2.outside hg.increasing v d hgd hy (.inl ⟨b, hb, hle⟩)

/-! ## Sample grid -/

theorem nearestGrid : Axes ([[0, 1, 3], [10, 20]] : List (List ℚ)) where
  dims := by simp
  nonempty := by simp
  increasing := by
    have : (10 : ℚ) < 20 := by norm_num
    simp [this]

theorem nearestHolds : Holds [3, 2] ["a", "b", "c", "d", "e", "f"] (fun idx => ["a", "b", "c", "d", "e", "f"].getD (pos [3, 2] idx) "") where
  size := rfl
  elem := by
    intro idx h
    cases h with
    | @cons i _ is _ hi h =>
      cases h with
      | @cons j _ js _ hj h =>
        cases h
        match i, hi with
        | 0, _ => match j, hj with
          | 0, _ => rfl
          | 1, _ => rfl
        | 1, _ => match j, hj with
          | 0, _ => rfl
          | 1, _ => rfl
        | 2, _ => match j, hj with
          | 0, _ => rfl
          | 1, _ => rfl

theorem nearestMake : RGN.make 2 ([[0, 1, 3], [10, 20]] : List (List ℚ)) ⟨[3, 2], ["a", "b", "c", "d", "e", "f"]⟩ =
    (.ok (), ⟨[[0, 1, 3], [10, 20]], ⟨[3, 2], ["a", "b", "c", "d", "e", "f"]⟩⟩) :=
  RGN.make_run (dim := 2) (grids := [[0, 1, 3], [10, 20]]) rfl _

/-- C26 is false: below the first axis the returned nodes have the last index of that axis. -/
theorem C26_refuted : ∃ nodes, RGN.surrounding (RGN.make 2 [[0, 1, 3], [10, 20]] ⟨[3, 2], ["a", "b", "c", "d", "e", "f"]⟩).2
    [(-1 : ℚ), 15] = .ok nodes ∧ nodes.length = 4 ∧ ∀ n ∈ nodes, n.indices[0]? = some 2 := by
  obtain ⟨nodes, h1, h2, h3⟩ := C26_below_returns_last nearestGrid (by simp) (a := ⟨[3, 2], ["a", "b", "c", "d", "e", "f"]⟩) (dim := 2)
    rfl nearestHolds nearestMake rfl (x := [-1, 15]) rfl
  rw [nearestMake]
  exact ⟨nodes, h1, h2, fun n hn => h3 n hn 0 [0, 1, 3] (-1) 0 rfl rfl rfl (by norm_num)⟩

example : ∃ n, RGN.nearest (RGN.make 2 [[0, 1, 3], [10, 20]] ⟨[3, 2], ["a", "b", "c", "d", "e", "f"]⟩).2 [(2 : ℚ), 5] = .ok n ∧
    Nearest [[0, 1, 3], [10, 20]] n.indices [(2 : ℚ), 5] := by
  obtain ⟨n, h1, h2, _⟩ := C24_nearest nearestGrid (a := ⟨[3, 2], ["a", "b", "c", "d", "e", "f"]⟩) (dim := 2)
    rfl nearestHolds nearestMake rfl (x := [2, 5]) rfl
  rw [nearestMake]
  exact ⟨n, h1, h2⟩

/-- At the midpoint of two nodes the upper one is the nearest. -/
example : NearestOn ([0, 1, 3] : List ℚ) 2 2 := by
  refine ⟨3, rfl, fun j q hj => ?_⟩
  match j with
  | 0 => simp at hj; subst hj; norm_num
  | 1 => simp at hj; subst hj; norm_num
  | 2 => simp at hj; subst hj; norm_num
  | n + 3 => simp at hj

example : InHalfOpenBox ([[0, 1, 3], [10, 20]] : List (List ℚ)) [1, 15] :=
  .cons (a := 0) (b := 3) rfl rfl (by norm_num) (by norm_num)
    (.cons (a := 10) (b := 20) rfl rfl (by norm_num) (by norm_num) .nil)

end MU
