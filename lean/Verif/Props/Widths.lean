import Verif.Model.Widths
import Verif.Props.RegularGrid

set_option linter.unusedSectionVars false

/-!
# C162: the check of the number of elements, with 32-bit integers

`addVar32 dim a` is `AddVar(a)` where the counts of the check wrap as in the code; `addVar dim a` is the same with counts of any size, for which C16-C25 are proved.
-/

namespace MU
open Spec NDInterp RGI

variable {K : Type} [Field K] [LinearOrder K] [IsStrictOrderedRing K]

theorem new32_ok {grids : List (List K)} {values : List K} (h : values.length % 2 ^ 32 = (grids.map List.length).prod % 2 ^ 32) :
    NDInterp.new32 grids values = .ok ⟨grids, values⟩ := by
  unfold NDInterp.new32
  rw [if_neg (by simpa using h)]

theorem new32_throws {grids : List (List K)} {values : List K} (h : values.length % 2 ^ 32 ≠ (grids.map List.length).prod % 2 ^ 32) :
    NDInterp.new32 grids values = .throws .invalidArgument := by
  unfold NDInterp.new32
  rw [if_pos h]

/-- C162: an array with as many elements as the grid has nodes is never refused, and is loaded as with counts of any size, however large the grid. -/
theorem C162_right_size (dim : Nat) (a : NDArray K) (s : RGI K) (h : a.elems.length = (s.grid_list.map List.length).prod) :
    (addVar32 dim a).run s = (addVar dim a).run s := by
  by_cases hd : s.grid_list.length = dim
  · simp [addVar32, addVar, hd, build32, build, NDInterp.new32, NDInterp.new, h]
  · simp [addVar32, addVar, hd]

/-- C162, the part that holds: with fewer than `2^32` nodes and elements, an array is accepted exactly when it has as many elements as the grid has nodes, and
`AddVar` does the same as with counts of any size. Missing: larger grids. -/
theorem C162_small_partial (dim : Nat) (a : NDArray K) (s : RGI K) (h1 : (s.grid_list.map List.length).prod < 2 ^ 32) (h2 : a.elems.length < 2 ^ 32) :
    (addVar32 dim a).run s = (addVar dim a).run s := by
  by_cases h : a.elems.length = (s.grid_list.map List.length).prod
  · exact C162_right_size dim a s h
  · by_cases hd : s.grid_list.length = dim
    · have h' : a.elems.length % 2 ^ 32 ≠ (s.grid_list.map List.length).prod % 2 ^ 32 := by
        rw [Nat.mod_eq_of_lt h1, Nat.mod_eq_of_lt h2]; exact h
      simp [addVar32, addVar, hd, build32, build, new32_throws h', NDInterp.new, h]
    · simp [addVar32, addVar, hd]

theorem addVar32_eq {dim : Nat} {a : NDArray K} {s : RGI K} (hd : s.grid_list.length = dim) (hne : ∀ g ∈ s.grid_list, g ≠ []) :
    ∃ l, Limits s.grid_list l ∧ (addVar32 dim a).run s =
      if a.elems.length % 2 ^ 32 = (s.grid_list.map List.length).prod % 2 ^ 32 then
        (.ok (), { s with data := a, gen := s.gen + 1, limits := some l, interp := some (⟨s.grid_list, a.elems⟩, s.gen + 1) })
      else (.throws .invalidArgument, { s with data := a, gen := s.gen + 1, limits := some l }) := by
  obtain ⟨l, hl, hL⟩ := computeLimits_ok hd hne
  refine ⟨l, hL, ?_⟩
  split_ifs with h
  · simp [addVar32, hd, build32, hl, new32_ok h]
  · simp [addVar32, hd, build32, hl, new32_throws h]

/-- C162, exactly which arrays are accepted once all axes are given: those whose number of elements differs from the number of nodes by a multiple of `2^32`. -/
theorem C162_accepts_iff {dim : Nat} {ops : List (RGI.Op K)} {outs : List (Res Unit)} {s : RGI K} (h : execAll dim ops (RGI.new K dim) = (outs, s))
    (ha : Alive outs) (hd : (acceptedAxes ops).length = dim) (hne : ∀ g ∈ acceptedAxes ops, g ≠ []) (a : NDArray K) :
    (((addVar32 dim a).run s).1 = .ok () ↔ (2 ^ 32 : ℤ) ∣ a.elems.length - ((acceptedAxes ops).map List.length).prod) ∧
    (((addVar32 dim a).run s).1 = .ok () ∨ ((addVar32 dim a).run s).1 = .throws .invalidArgument) := by
  have hs : s.grid_list = acceptedAxes ops := by rw [execAll_grid h ha]; simp [RGI.new]
  obtain ⟨l, -, he⟩ := addVar32_eq (a := a) (s := s) (hs ▸ hd) (hs ▸ hne)
  rw [he, hs]
  have key : a.elems.length % 2 ^ 32 = ((acceptedAxes ops).map List.length).prod % 2 ^ 32 ↔
      (2 ^ 32 : ℤ) ∣ a.elems.length - ((acceptedAxes ops).map List.length).prod := by
    generalize ((acceptedAxes ops).map List.length).prod = p
    generalize a.elems.length = n
    norm_num
    omega
  split_ifs with hc
  · exact ⟨⟨fun _ => key.1 hc, fun _ => rfl⟩, .inl rfl⟩
  · exact ⟨⟨fun h => by simp at h, fun h => absurd (key.2 h) hc⟩, .inr rfl⟩

theorem findCell_last {g : List K} (hne : g ≠ []) {x b : K} (hb : g.getLast? = some b) (hinc : g.Pairwise (· < ·)) (hx : b ≤ x) :
    findCell g x = .ok ((g.length : Int) - 1) := by
  have hpos := List.length_pos_of_ne_nil hne
  rw [List.getLast?_eq_getElem?, List.getElem?_eq_getElem (by omega)] at hb
  have hb' : g[g.length - 1] = b := by simpa using hb
  have h0 : g[0] ≤ b := by
    rw [← hb']
    by_cases h1 : g.length = 1
    · simp [h1]
    · exact (List.pairwise_iff_getElem.1 hinc 0 (g.length - 1) (by omega) (by omega) (by omega)).le
  unfold findCell
  rw [vIdx_lt hpos, vIdx_lt (by omega : g.length - 1 < g.length)]
  simp only [Res.ok_bind]
  rw [if_neg (not_lt.2 (h0.trans hx)), if_pos (hb' ▸ hx)]

theorem axes_last {grids : List (List K)} (hne : ∀ g ∈ grids, g ≠ []) (hinc : ∀ g ∈ grids, g.Pairwise (· < ·)) {x : List K}
    (hx : List.Forall₂ (fun g c => ∃ b, g.getLast? = some b ∧ b ≤ c) grids x) :
    ∃ ys, axes grids x = .ok (grids.map (fun g => (g.length : Int) - 1), ys) := by
  induction hx with
  | nil => exact ⟨[], rfl⟩
  | @cons g c gs cs h1 _ ih =>
    obtain ⟨b, hb, hc⟩ := h1
    obtain ⟨ys, he⟩ := ih (fun g hg => hne g (by simp [hg])) (fun g hg => hinc g (by simp [hg]))
    have hpos := List.length_pos_of_ne_nil (hne g (by simp))
    have e1 : axis g c = .ok ((g.length : Int) - 1, 0) := by
      unfold axis
      rw [findCell_last (hne g (by simp)) hb (hinc g (by simp)) hc]
      simp only [Res.ok_bind]
      rw [if_neg (by omega)]
      simp
    exact ⟨0 :: ys, by simp [axes, e1, he]⟩

theorem fIndex_last (grids : List (List K)) (v : List Int) (hne : ∀ g ∈ grids, g ≠ []) (hv : v.length = grids.length) :
    fIndex grids (grids.map (fun g => (g.length : Int) - 1)) v = ((grids.map List.length).map (· - 1)).map (fun (n : Nat) => (n : Int)) := by
  induction grids generalizing v with
  | nil => rfl
  | cons g gs ih =>
    cases v with
    | nil => simp at hv
    | cons a v =>
      have hpos := List.length_pos_of_ne_nil (hne g (by simp))
      have := ih v (fun g hg => hne g (by simp [hg])) (by simpa using hv)
      simp only [List.map_cons, fIndex, this]
      rw [if_neg (by omega), if_pos (by omega)]
      congr 1
      omega

theorem inside_last {gs : List Nat} (hp : ∀ g ∈ gs, 0 < g) : Inside (gs.map (· - 1)) gs ∧ pos gs (gs.map (· - 1)) = gs.prod - 1 := by
  induction gs with
  | nil => exact ⟨.nil, rfl⟩
  | cons g gs ih =>
    obtain ⟨h1, h2⟩ := ih (fun x hx => hp x (by simp [hx]))
    have h0 := hp g (by simp)
    have hpos : 0 < gs.prod := List.prod_pos fun x hx => hp x (by simp [hx])
    refine ⟨.cons (by simp only; omega) h1, ?_⟩
    simp only [List.map_cons, pos, h2, List.prod_cons]
    obtain ⟨k, rfl⟩ : ∃ k, g = k + 1 := ⟨g - 1, by omega⟩
    simp only [Nat.add_sub_cancel, add_mul, one_mul]
    omega

/-- C162, what a wrongly accepted array does: after an accepted `AddVar` with fewer elements than nodes, the object is valid and every query at or beyond the last
node (without bound check) is undefined behaviour. -/
theorem C162_accepted_short {dim : Nat} {ops : List (RGI.Op K)} {outs : List (Res Unit)} {s s' : RGI K} (hdim : 0 < dim)
    (h : execAll dim ops (RGI.new K dim) = (outs, s)) (ha : Alive outs) (hd : (acceptedAxes ops).length = dim) (hne : ∀ g ∈ acceptedAxes ops, g ≠ [])
    {a : NDArray K} (hv : (addVar32 dim a).run s = (.ok (), s')) (hlt : a.elems.length < ((acceptedAxes ops).map List.length).prod) {x : List K}
    (hx : List.Forall₂ (fun g c => ∃ b, g.getLast? = some b ∧ b ≤ c) (acceptedAxes ops) x) :
    isValid s' = true ∧ interpolate s' x false = .ub := by
  have hs : s.grid_list = acceptedAxes ops := by rw [execAll_grid h ha]; simp [RGI.new]
  obtain ⟨l, -, he⟩ := addVar32_eq (a := a) (s := s) (hs ▸ hd) (hs ▸ hne)
  rw [he, hs] at hv
  split_ifs at hv with hc
  · simp only [Prod.mk.injEq, true_and] at hv
    subst hv
    refine ⟨rfl, ?_⟩
    have hinc : ∀ g ∈ acceptedAxes ops, g.Pairwise (· < ·) := fun g hg => by
      simpa using (List.mem_filter.1 hg).2
    obtain ⟨ys, hax⟩ := axes_last hne hinc hx
    have hg : ∀ v, getFValV (⟨acceptedAxes ops, a.elems⟩ : NDInterp K) ((acceptedAxes ops).map (fun g => (g.length : Int) - 1)) v = .ub := by
      intro v
      unfold getFValV getFVal mdRead
      simp only
      rw [fIndex_last _ _ hne (by simp [vertexBits])]
      have hp : ∀ n ∈ (acceptedAxes ops).map List.length, 0 < n := by
        intro n hn
        obtain ⟨g, hg, rfl⟩ := List.mem_map.1 hn
        exact List.length_pos_of_ne_nil (hne g hg)
      obtain ⟨i1, i2⟩ := inside_last hp
      rw [mdOffset_eq i1, i2]
      simp only [Res.ok_bind]
      exact vIdx_ge (by omega)
    unfold interpolate
    simp only [Bool.false_eq_true, if_false, deref_some, Res.ok_bind, ne_eq, not_true_eq_false]
    unfold interpMultilinear
    simp only [hax, Res.ok_bind]
    obtain ⟨m, hm⟩ : ∃ m, 1 <<< (acceptedAxes ops).length = m + 1 := ⟨1 <<< (acceptedAxes ops).length - 1, by
      have : 0 < 1 <<< (acceptedAxes ops).length := by rw [Nat.one_shiftLeft]; positivity
      omega⟩
    simp [forRange, hm, forN, hg]
  · simp at hv

theorem axis_exists (n : Nat) : ∃ g : List ℚ, g.Pairwise (· < ·) ∧ g.length = n + 1 ∧ g.getLast? = some (n : ℚ) := by
  refine ⟨List.map (fun k : Nat => (k : ℚ)) (List.range (n + 1)), ?_, by simp, by simp [List.range_succ]⟩
  rw [List.pairwise_map]
  exact List.pairwise_lt_range.imp (fun h => by exact_mod_cast h)

/-- C162 is false: on a grid of 65536 by 65536 nodes an empty array is accepted: the number of nodes wraps to 0. -/
theorem C162_refuted : ∃ (ops : List (RGI.Op ℚ)) (s s' : RGI ℚ), execAll 2 ops (RGI.new ℚ 2) = ([.ok (), .ok ()], s) ∧
    (acceptedAxes ops).map List.length = [65536, 65536] ∧ (addVar32 2 ⟨[0, 0], []⟩).run s = (.ok (), s') ∧
    isValid s' = true ∧ interpolate s' [65535, 65535] false = .ub ∧ ((addVar 2 ⟨[0, 0], []⟩).run s).1 = .throws .invalidArgument := by
  obtain ⟨g, hinc, hlen, hlast⟩ := axis_exists 65535
  have hne : g ≠ [] := by intro e; rw [e] at hlen; simp at hlen
  have hincb : increasing g = true := (increasing_iff g).2 hinc
  have hacc : acceptedAxes [RGI.Op.addCoord g, RGI.Op.addCoord g] = [g, g] := by simp [acceptedAxes, axisArg, hinc]
  have hex : ∃ s, execAll 2 [.addCoord g, .addCoord g] (RGI.new ℚ 2) = ([.ok (), .ok ()], s) := by
    refine ⟨_, Prod.ext ?_ rfl⟩
    simp [execAll, exec, addCoord, hincb, RGI.new]
  obtain ⟨s, hs⟩ := hex
  have ha : Alive [(.ok () : Res Unit), .ok ()] := by intro r hr; left; simpa using hr
  have hgl : s.grid_list = [g, g] := by rw [execAll_grid hs ha, hacc]; simp [RGI.new]
  have hne2 : ∀ g' ∈ [g, g], g' ≠ [] := by simp [hne]
  obtain ⟨l, hl, he⟩ := addVar32_eq (dim := 2) (a := ⟨[0, 0], []⟩) (s := s) (by simp [hgl]) (by rw [hgl]; exact hne2)
  rw [hgl, if_pos (by simp [hlen])] at he
  have := C162_accepted_short (dim := 2) (by norm_num) hs ha (by rw [hacc]; rfl) (by rw [hacc]; exact hne2) he (by rw [hacc]; simp [hlen])
    (x := [65535, 65535]) (by rw [hacc]; exact .cons ⟨_, hlast, le_rfl⟩ (.cons ⟨_, hlast, le_rfl⟩ .nil))
  refine ⟨_, s, _, hs, by rw [hacc]; simp [hlen], he, this.1, this.2, ?_⟩
  obtain ⟨l', hl', -⟩ := computeLimits_ok (dim := 2) (grids := s.grid_list) (by simp [hgl]) (by rw [hgl]; exact hne2)
  rw [addVar_complete (by simp [hgl]), build_throws (s := { s with data := ⟨[0, 0], []⟩, gen := s.gen + 1 }) (l := l') hl' (by simp [hgl, hlen])]

end MU
