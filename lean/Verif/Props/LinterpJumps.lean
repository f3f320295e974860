import Verif.Model.LinterpJumps
import Verif.Lemmas.LinterpCube
import Mathlib.Topology.Algebra.Order.Field
import Mathlib.Topology.Instances.Real.Lemmas
import Mathlib.Tactic.IntervalCases

set_option linter.unusedSectionVars false
set_option linter.unusedSimpArgs false

/-!
# C186 Interpolation of functions that jump at the nodes

`InterpMultilinear` and `InterpSimplex` with `Continuous = false`.
-/

namespace MU.Spec

variable {K : Type} [Field K] [LinearOrder K]

/-- `φ` is the function of one variable described by the nodes `g` and the values `f`, two for each node: those of the node `c` are the limit from below, `f[2 c]`, and the value
there, `f[2 c + 1]`. `φ` is constant below the first node and from the last node on, and affine between nodes. -/
structure Jumps (g f : List K) (φ : K → K) : Prop where
  below : ∀ a x, g[0]? = some a → x < a → f[0]? = some (φ x)
  above : ∀ b x, g[g.length - 1]? = some b → b ≤ x → f[2 * (g.length - 1) + 1]? = some (φ x)
  between : ∀ c a b, g[c]? = some a → g[c + 1]? = some b → ∃ u v, f[2 * c + 1]? = some u ∧ f[2 * (c + 1)]? = some v ∧
    ∀ x, a ≤ x → x < b → φ x = (u * (b - x) + v * (x - a)) / (b - a)

end MU.Spec

namespace MU
open Spec NDInterp

section
variable {K : Type} [Field K] [LinearOrder K] [IsStrictOrderedRing K]

theorem getFValJumps_one {g f : List K} {c v : Int} {i : Nat} {y : K} (hi : (if c < 0 then 0 else if (g.length : Int) - 1 ≤ c then 2 * (g.length : Int) - 1 else 1 + 2 * c + v) = i)
    (hl : i < 2 * g.length) (hf : f[i]? = some y) : getFValJumps ⟨[g], f⟩ [c] [v] = .ok y := by
  unfold getFValJumps mdRead jumpExtents
  simp only [fIndexJumps, hi, List.map_cons, List.map_nil, mdOffset]
  rw [if_pos ⟨by omega, by push_cast; omega⟩]
  simp [vIdx, hf]

/-- What the interpolation on one axis computes from the cell, the fraction and the two values. -/
theorem interp_one {g f : List K} {x y u v : K} {c : Int} (ha : axis g x = .ok (c, y)) (h0 : getFValJumps ⟨[g], f⟩ [c] [0] = .ok u)
    (h1 : getFValJumps ⟨[g], f⟩ [c] [1] = .ok v) : interpMultilinearJumps ⟨[g], f⟩ [x] = .ok (u + y * (v - u)) ∧
      ∀ sort : List (K × Nat) → List (K × Nat), IsSort sort → interpSimplexJumps sort ⟨[g], f⟩ [x] = .ok (u + y * (v - u)) := by
  constructor
  · unfold interpMultilinearJumps
    simp only [axes, ha, Res.ok_bind, Res.pure_eq, List.length_cons, List.length_nil]
    have hloop := forRange_ok (lo := 0) (hi := 1 <<< (0 + 1)) (Nat.zero_le _)
      (f := fun w l => do
        let z ← getFValJumps (⟨[g], f⟩ : NDInterp K) [c] (vertexBits (0 + 1) w)
        return l ++ [z]) (fun n => [u, v].take n) (by
        intro i _ hi
        have hi : i < 2 := hi
        interval_cases i
        · rw [show vertexBits (0 + 1) 0 = [0] by rfl, h0]; rfl
        · rw [show vertexBits (0 + 1) 1 = [1] by rfl, h1]; rfl)
    simp only [List.take_zero, Res.pure_eq] at hloop
    rw [hloop]
    simp [unitcube, vIdx]
  · intro sort hs
    have : sort [(y, 0)] = [(y, 0)] := List.perm_singleton.mp (hs _).1
    unfold interpSimplexJumps
    simp only [axes, ha, Res.ok_bind, Res.pure_eq, List.length_cons, List.length_nil, List.zipIdx_cons, List.zipIdx_nil, this, List.replicate_succ, List.replicate_zero]
    rw [h1]
    simp only [Res.ok_bind, simplexWalkJumps, List.modify_zero_cons]
    rw [show (1 : Int) - 1 = 0 by rfl, h0]
    simp only [Res.ok_bind]
    congr 1; ring

/-- The value at a point, from the position of the point. -/
theorem interp_jumps {g f : List K} (hne : g ≠ []) (hinc : g.Pairwise (· < ·)) (hf : f.length = 2 * g.length) (x : K) :
    ∃ y, (interpMultilinearJumps ⟨[g], f⟩ [x] = .ok y ∧ ∀ sort : List (K × Nat) → List (K × Nat), IsSort sort → interpSimplexJumps sort ⟨[g], f⟩ [x] = .ok y) ∧
      ((∃ a, g[0]? = some a ∧ x < a ∧ f[0]? = some y) ∨ (∃ b, g[g.length - 1]? = some b ∧ b ≤ x ∧ f[2 * (g.length - 1) + 1]? = some y) ∨
        ∃ c a b u v, g[c]? = some a ∧ g[c + 1]? = some b ∧ a ≤ x ∧ x < b ∧ f[2 * c + 1]? = some u ∧ f[2 * (c + 1)]? = some v ∧
          y = (u * (b - x) + v * (x - a)) / (b - a)) := by
  have hl : 0 < g.length := List.length_pos_of_ne_nil hne
  obtain ⟨c, y, lo, hi, ha, hr⟩ := axis_res hne hinc x
  cases hr with
  | below a h0 h1 =>
    have hg := List.getElem?_eq_getElem (l := f) (i := 0) (by omega)
    have e := fun v => getFValJumps_one (g := g) (f := f) (c := -1) (v := v) (i := 0) (by simp) (by omega) hg
    exact ⟨_, interp_one ha (e 0) (e 1), Or.inl ⟨a, h0, h1, by rw [hg]; congr 1; ring⟩⟩
  | above b h0 h1 =>
    have hg := List.getElem?_eq_getElem (l := f) (i := 2 * (g.length - 1) + 1) (by omega)
    have e := fun v => getFValJumps_one (g := g) (f := f) (c := (g.length : Int) - 1) (v := v) (i := 2 * (g.length - 1) + 1)
      (by rw [if_neg (by omega), if_pos (by omega)]; omega) (by omega) hg
    exact ⟨_, interp_one ha (e 0) (e 1), Or.inr (Or.inl ⟨b, h0, h1, by rw [hg]; congr 1; ring⟩)⟩
  | inside _ a b h0 h1 h2 h3 =>
    rename' lo => c
    have hc : c + 1 < g.length := (List.getElem?_eq_some_iff.mp h1).1
    have hg0 := List.getElem?_eq_getElem (l := f) (i := 2 * c + 1) (by omega)
    have hg1 := List.getElem?_eq_getElem (l := f) (i := 2 * (c + 1)) (by omega)
    have e0 := getFValJumps_one (g := g) (f := f) (c := c) (v := 0) (i := 2 * c + 1) (by rw [if_neg (by omega), if_neg (by omega)]; push_cast; ring) (by omega) hg0
    have e1 := getFValJumps_one (g := g) (f := f) (c := c) (v := 1) (i := 2 * (c + 1)) (by rw [if_neg (by omega), if_neg (by omega)]; push_cast; ring) (by omega) hg1
    refine ⟨_, interp_one ha e0 e1, Or.inr (Or.inr ⟨c, a, b, _, _, h0, h1, h2, h3, hg0, hg1, ?_⟩)⟩
    have : b - a ≠ 0 := sub_ne_zero.mpr (lt_of_le_of_lt h2 h3).ne'
    field_simp
    ring

/-- C186: on one axis the constructor takes two values for each node, no more and no less, and both interpolators give at every point the function that jumps at the nodes. -/
theorem C186_one_axis_partial {g f : List K} (hne : g ≠ []) (hinc : g.Pairwise (· < ·)) :
    (f.length ≠ 2 * g.length → newJumps [g] f = .throws .invalidArgument) ∧
    (f.length = 2 * g.length → ∃ t, newJumps [g] f = .ok t ∧
      (∃ φ, Jumps g f φ) ∧ ∀ φ, Jumps g f φ → ∀ x, interpMultilinearJumps t [x] = .ok (φ x) ∧
        ∀ sort : List (K × Nat) → List (K × Nat), IsSort sort → interpSimplexJumps sort t [x] = .ok (φ x)) := by
  refine ⟨fun h => by simp [newJumps, h], fun h => ⟨⟨[g], f⟩, by simp [newJumps, h], ?_, ?_⟩⟩
  · choose φ h1 h2 using interp_jumps (f := f) hne hinc h
    refine ⟨φ, fun a x ha hx => ?_, fun b x hb hx => ?_, fun c a b ha hb => ?_⟩
    · rcases h2 x with ⟨a', ha', hx', he⟩ | ⟨b', hb', hx', he⟩ | ⟨c', a', b', u, v, ha', hb', hx', hx'', hu, hv, he⟩
      · exact he
      · exact absurd (getElem?_le hinc ha hb' (Nat.zero_le _)) (not_le.mpr (lt_of_le_of_lt hx' hx))
      · exact absurd (getElem?_le hinc ha ha' (Nat.zero_le _)) (not_le.mpr (lt_of_le_of_lt hx' hx))
    · rcases h2 x with ⟨a', ha', hx', he⟩ | ⟨b', hb', hx', he⟩ | ⟨c', a', b', u, v, ha', hb', hx', hx'', hu, hv, he⟩
      · exact absurd (getElem?_le hinc ha' hb (Nat.zero_le _)) (not_le.mpr (lt_of_le_of_lt hx hx'))
      · exact he
      · have : c' + 1 < g.length := (List.getElem?_eq_some_iff.mp hb').1
        exact absurd (getElem?_le hinc hb' hb (by omega)) (not_le.mpr (lt_of_le_of_lt hx hx''))
    · have hc : c + 1 < g.length := (List.getElem?_eq_some_iff.mp hb).1
      refine ⟨_, _, List.getElem?_eq_getElem (show 2 * c + 1 < f.length by omega), List.getElem?_eq_getElem (show 2 * (c + 1) < f.length by omega), fun x hx hxb => ?_⟩
      rcases h2 x with ⟨a', ha', hx', he⟩ | ⟨b', hb', hx', he⟩ | ⟨c', a', b', u, v, ha', hb', hx', hx'', hu, hv, he⟩
      · exact absurd (getElem?_le hinc ha' ha (Nat.zero_le _)) (not_le.mpr (lt_of_le_of_lt hx hx'))
      · exact absurd (getElem?_le hinc hb hb' (by omega)) (not_le.mpr (lt_of_le_of_lt hx' hxb))
      · rcases lt_trichotomy c c' with hcc | rfl | hcc
        · exact absurd (getElem?_le hinc hb ha' (by omega)) (not_le.mpr (lt_of_le_of_lt hx' hxb))
        · rw [he, Option.some.inj (ha'.symm.trans ha), Option.some.inj (hb'.symm.trans hb), (List.getElem?_eq_some_iff.mp hu).2, (List.getElem?_eq_some_iff.mp hv).2]
        · exact absurd (getElem?_le hinc hb' ha (by omega)) (not_le.mpr (lt_of_le_of_lt hx hx''))
  · intro φ hφ x
    obtain ⟨y, hy, h⟩ := interp_jumps (f := f) hne hinc h x
    suffices y = φ x by rw [← this]; exact hy
    rcases h with ⟨a, ha, hx, he⟩ | ⟨b, hb, hx, he⟩ | ⟨c, a, b, u, v, ha, hb, hx, hx', hu, hv, he⟩
    · exact Option.some.inj (he.symm.trans (hφ.below a x ha hx))
    · exact Option.some.inj (he.symm.trans (hφ.above b x hb hx))
    · obtain ⟨u', v', hu', hv', hp⟩ := hφ.between c a b ha hb
      rw [he, hp x hx hx', Option.some.inj (hu.symm.trans hu'), Option.some.inj (hv.symm.trans hv')]

/-- C186, at the nodes: the value there is the second of the two values of the node, and the first is the limit from below. -/
theorem C186_nodes_partial {g f : List K} (hinc : g.Pairwise (· < ·)) {t : NDInterp K} (ht : newJumps [g] f = .ok t) {c : Nat} {a : K} (ha : g[c]? = some a) :
    ∃ u v, f[2 * c]? = some u ∧ f[2 * c + 1]? = some v ∧ interpMultilinearJumps t [a] = .ok v ∧
      ∀ ε > 0, ∃ δ > 0, ∀ x, a - δ < x → x < a → ∃ y, interpMultilinearJumps t [x] = .ok y ∧ |y - u| < ε := by
  have hc : c < g.length := (List.getElem?_eq_some_iff.mp ha).1
  have hne : g ≠ [] := by rintro rfl; simp at hc
  have hf : f.length = 2 * g.length := by
    by_contra hf
    simp [newJumps, hf] at ht
  obtain rfl : (⟨[g], f⟩ : NDInterp K) = t := by simpa [newJumps, hf] using ht
  refine ⟨_, _, List.getElem?_eq_getElem (show 2 * c < f.length by omega), List.getElem?_eq_getElem (show 2 * c + 1 < f.length by omega), ?_, fun ε hε => ?_⟩
  · obtain ⟨y, hy, h⟩ := interp_jumps (f := f) hne hinc hf a
    rw [hy.1]
    congr 1
    rcases h with ⟨a', ha', hx', he⟩ | ⟨b', hb', hx', he⟩ | ⟨c', a', b', u, v, ha', hb', hx', hx'', hu, hv, he⟩
    · exact absurd (getElem?_le hinc ha' ha (Nat.zero_le _)) (not_le.mpr hx')
    · have : c = g.length - 1 := by
        by_contra hcc
        exact absurd (getElem?_lt hinc ha hb' (by omega)) (not_lt.mpr hx')
      subst this
      exact ((List.getElem?_eq_some_iff.mp he).2).symm
    · have : c = c' := by
        rcases lt_trichotomy c c' with hcc | hcc | hcc
        · exact absurd (getElem?_lt hinc ha ha' hcc) (not_lt.mpr hx')
        · exact hcc
        · exact absurd (getElem?_le hinc hb' ha (by omega)) (not_le.mpr hx'')
      subst this
      obtain rfl : a = a' := Option.some.inj (ha.symm.trans ha')
      have : b' - a ≠ 0 := sub_ne_zero.mpr hx''.ne'
      rw [he, (List.getElem?_eq_some_iff.mp hu).2, sub_self, mul_zero, add_zero, mul_div_cancel_right₀ _ this]
  · cases c with
    | zero =>
      refine ⟨1, one_pos, fun x _ hx => ?_⟩
      obtain ⟨y, hy, h⟩ := interp_jumps (f := f) hne hinc hf x
      refine ⟨y, hy.1, ?_⟩
      rcases h with ⟨a', ha', hx', he⟩ | ⟨b', hb', hx', he⟩ | ⟨c', a', b', u, v, ha', hb', hx', hx'', hu, hv, he⟩
      · rw [← (List.getElem?_eq_some_iff.mp he).2]
        simpa using hε
      · exact absurd (getElem?_le hinc ha hb' (Nat.zero_le _)) (not_le.mpr (lt_of_le_of_lt hx' hx))
      · exact absurd (getElem?_le hinc ha ha' (Nat.zero_le _)) (not_le.mpr (lt_of_le_of_lt hx' hx))
    | succ c =>
      have h0 := List.getElem?_eq_getElem (l := g) (i := c) (by omega)
      have hlt := getElem?_lt hinc h0 ha (by omega)
      generalize g[c] = a0 at h0 hlt
      have hg0 := List.getElem?_eq_getElem (l := f) (i := 2 * c + 1) (by omega)
      have hg1 := List.getElem?_eq_getElem (l := f) (i := 2 * (c + 1)) (by omega)
      generalize f[2 * c + 1] = u at hg0
      generalize f[2 * (c + 1)] = v at hg1 ⊢
      have hd : 0 < a - a0 := sub_pos.mpr hlt
      have hm : 0 < |u - v| + 1 := by positivity
      refine ⟨min (a - a0) (ε * (a - a0) / (|u - v| + 1)), lt_min hd (by positivity), fun x hx hxa => ?_⟩
      have hx1 : a0 < x := by have := min_le_left (a - a0) (ε * (a - a0) / (|u - v| + 1)); linarith
      have hx2 : a - x < ε * (a - a0) / (|u - v| + 1) := by have := min_le_right (a - a0) (ε * (a - a0) / (|u - v| + 1)); linarith
      obtain ⟨y, hy, h⟩ := interp_jumps (f := f) hne hinc hf x
      refine ⟨y, hy.1, ?_⟩
      rcases h with ⟨a', ha', hx', he⟩ | ⟨b', hb', hx', he⟩ | ⟨c', a', b', u', v', ha', hb', hx', hx'', hu, hv, he⟩
      · exact absurd (getElem?_le hinc ha' h0 (Nat.zero_le _)) (not_le.mpr (hx1.trans hx'))
      · exact absurd (getElem?_le hinc ha hb' (by omega)) (not_le.mpr (lt_of_le_of_lt hx' hxa))
      · have : c = c' := by
          rcases lt_trichotomy c c' with hcc | hcc | hcc
          · exact absurd (getElem?_le hinc ha ha' (by omega)) (not_le.mpr (lt_of_le_of_lt hx' hxa))
          · exact hcc
          · exact absurd (getElem?_le hinc hb' h0 (by omega)) (not_le.mpr (hx1.trans hx''))
        subst this
        obtain rfl : a0 = a' := Option.some.inj (h0.symm.trans ha')
        obtain rfl : a = b' := Option.some.inj (ha.symm.trans hb')
        obtain rfl : u = u' := Option.some.inj (hg0.symm.trans hu)
        obtain rfl : v = v' := Option.some.inj (hg1.symm.trans hv)
        have e : y - v = (u - v) * ((a - x) / (a - a0)) := by
          rw [he]
          field_simp
          ring
        rw [e, abs_mul, abs_of_nonneg (div_nonneg (by linarith) hd.le), ← mul_div_assoc, div_lt_iff₀ hd]
        have h1 : |u - v| * (a - x) ≤ (|u - v| + 1) * (a - x) := mul_le_mul_of_nonneg_right (by linarith) (by linarith)
        rw [lt_div_iff₀ hm] at hx2
        linarith

/-! ## Several axes -/

/-- Beyond the last node of every axis. -/
theorem axes_beyond {grids : List (List K)} {x : List K} (hne : ∀ g ∈ grids, g ≠ []) (hinc : ∀ g ∈ grids, g.Pairwise (· < ·))
    (hx : List.Forall₂ (fun (g : List K) a => ∃ b, g[g.length - 1]? = some b ∧ b ≤ a) grids x) :
    ∃ ys, axes grids x = .ok (grids.map (fun g => (g.length : Int) - 1), ys) := by
  induction hx with
  | nil => exact ⟨[], rfl⟩
  | @cons g a gs xs h1 _ ih =>
    obtain ⟨b, hb, hba⟩ := h1
    obtain ⟨ys, hys⟩ := ih (fun g' h => hne g' (by simp [h])) (fun g' h => hinc g' (by simp [h]))
    obtain ⟨c, y, lo, hi, ha, hr⟩ := axis_res (hne g (by simp)) (hinc g (by simp)) a
    have hc : c = (g.length : Int) - 1 := by
      cases hr with
      | below a' h0 h1 => exact absurd (getElem?_le (hinc g (by simp)) h0 hb (Nat.zero_le _)) (not_le.mpr (lt_of_le_of_lt hba h1))
      | above => rfl
      | inside _ a' b' h0 h1 h2 h3 =>
        have : lo + 1 < g.length := (List.getElem?_eq_some_iff.mp h1).1
        exact absurd (getElem?_le (hinc g (by simp)) h1 hb (by omega)) (not_le.mpr (lt_of_le_of_lt hba h3))
    exact ⟨y :: ys, by simp [axes, ha, hys, hc]⟩

theorem fIndexJumps_last (grids : List (List K)) (hne : ∀ g ∈ grids, g ≠ []) {v : List Int} (hv : v.length = grids.length) :
    fIndexJumps grids (grids.map (fun g => (g.length : Int) - 1)) v = ((jumpExtents grids).map (· - 1)).map (fun (n : Nat) => (n : Int)) := by
  induction grids generalizing v with
  | nil => simp [fIndexJumps, jumpExtents]
  | cons g gs ih =>
    obtain ⟨w, ws, rfl⟩ := List.exists_cons_of_length_eq_add_one hv
    have hl : 0 < g.length := List.length_pos_of_ne_nil (hne g (by simp))
    have := ih (fun g' h => hne g' (by simp [h])) (v := ws) (by simpa using hv)
    simp only [List.map_cons, fIndexJumps, this, jumpExtents, le_refl, if_true]
    rw [if_neg (by omega)]
    congr 1
    omega

theorem pos_last (sizes : List Nat) (h : ∀ n ∈ sizes, 0 < n) : Inside (sizes.map (· - 1)) sizes ∧ pos sizes (sizes.map (· - 1)) + 1 = sizes.prod := by
  induction sizes with
  | nil => exact ⟨.nil, rfl⟩
  | cons n ns ih =>
    obtain ⟨h1, h2⟩ := ih (fun m hm => h m (by simp [hm]))
    have hn := h n (by simp)
    refine ⟨.cons (show n - 1 < n by omega) h1, ?_⟩
    simp only [List.map_cons, pos, List.prod_cons]
    rw [add_assoc, h2, ← Nat.succ_mul]
    congr 1
    omega

theorem jumpExtents_prod (grids : List (List K)) : (jumpExtents grids).prod = 2 ^ grids.length * (grids.map List.length).prod := by
  induction grids with
  | nil => rfl
  | cons g gs ih =>
    simp only [jumpExtents, List.map_cons, List.prod_cons, List.length_cons] at ih ⊢
    rw [ih]
    ring

theorem getFValJumps_last {grids : List (List K)} {values : List K} (hg : Axes grids) (h2 : 2 ≤ grids.length)
    (hv : values.length = 2 * (grids.map List.length).prod) {v : List Int} (hl : v.length = grids.length) :
    getFValJumps ⟨grids, values⟩ (grids.map (fun g => (g.length : Int) - 1)) v = .ub := by
  unfold getFValJumps mdRead
  have hp : ∀ n ∈ jumpExtents grids, 0 < n := by
    intro n hn
    obtain ⟨g, hg', rfl⟩ := List.mem_map.mp hn
    have := List.length_pos_of_ne_nil (hg.nonempty g hg')
    omega
  obtain ⟨h3, h4⟩ := pos_last _ hp
  simp only [fIndexJumps_last grids hg.nonempty hl]
  rw [mdOffset_eq h3]
  simp only [Res.ok_bind, Nat.zero_mul, Nat.zero_add]
  rw [jumpExtents_prod] at h4
  have hpos : 0 < (grids.map List.length).prod := by
    apply List.prod_pos
    intro n hn
    obtain ⟨g, hg', rfl⟩ := List.mem_map.mp hn
    exact List.length_pos_of_ne_nil (hg.nonempty g hg')
  have h5 : 2 ^ 2 ≤ 2 ^ grids.length := Nat.pow_le_pow_right (by norm_num) h2
  have h6 : 2 ^ 2 * (grids.map List.length).prod ≤ 2 ^ grids.length * (grids.map List.length).prod := Nat.mul_le_mul_right _ h5
  have h7 : values[pos (jumpExtents grids) ((jumpExtents grids).map (· - 1))]? = none := List.getElem?_eq_none (by omega)
  simp [vIdx, h7]

/-- C186 fails with two axes or more, whatever they are. Two values for each node of each axis, as many as the extents of the array say, are refused. The number of values that the
constructor asks for is too small: at the last node of all axes, and everywhere beyond it, both interpolators read past the end of the values. -/
theorem C186_several_axes {grids : List (List K)} (hg : Axes grids) (h2 : 2 ≤ grids.length) (values : List K) :
    (values.length = (grids.map (fun g => 2 * g.length)).prod → newJumps grids values = .throws .invalidArgument) ∧
    ∀ t, newJumps grids values = .ok t → ∀ x, List.Forall₂ (fun (g : List K) a => ∃ b, g[g.length - 1]? = some b ∧ b ≤ a) grids x →
      interpMultilinearJumps t x = .ub ∧ ∀ sort : List (K × Nat) → List (K × Nat), interpSimplexJumps sort t x = .ub := by
  constructor
  · intro h
    have hpos : 0 < (grids.map List.length).prod := by
      apply List.prod_pos
      intro n hn
      obtain ⟨g, hg', rfl⟩ := List.mem_map.mp hn
      exact List.length_pos_of_ne_nil (hg.nonempty g hg')
    have h3 : (grids.map (fun g => 2 * g.length)).prod = 2 ^ grids.length * (grids.map List.length).prod := by
      rw [← jumpExtents_prod, jumpExtents]
      simp only [mul_comm]
    have h5 : 2 ^ 2 ≤ 2 ^ grids.length := Nat.pow_le_pow_right (by norm_num) h2
    have h6 : 2 ^ 2 * (grids.map List.length).prod ≤ 2 ^ grids.length * (grids.map List.length).prod := Nat.mul_le_mul_right _ h5
    have : values.length ≠ 2 * (grids.map List.length).prod := by omega
    simp [newJumps, this]
  · intro t ht x hx
    have hv : values.length = 2 * (grids.map List.length).prod := by
      by_contra hv
      simp [newJumps, hv] at ht
    obtain rfl : (⟨grids, values⟩ : NDInterp K) = t := by simpa [newJumps, hv] using ht
    obtain ⟨ys, hys⟩ := axes_beyond hg.nonempty hg.increasing hx
    constructor
    · unfold interpMultilinearJumps
      simp only [hys, Res.ok_bind]
      rw [show 1 <<< grids.length = (2 ^ grids.length - 1) + 1 by
        rw [Nat.shiftLeft_eq, one_mul]; have := Nat.one_le_two_pow (n := grids.length); omega]
      simp only [forRange, Nat.sub_zero, forN]
      rw [getFValJumps_last hg h2 hv (by simp [vertexBits])]
      rfl
    · intro sort
      unfold interpSimplexJumps
      simp only [hys, Res.ok_bind]
      rw [getFValJumps_last hg h2 hv (by simp)]
      rfl

end

/-- The function that is 0 below 1, goes from 2 at 1 to 4 below 3 and is 7 from 3 on. -/
example : ∃ t, newJumps [[1, 3]] [0, 2, 4, (7 : ℚ)] = .ok t ∧ interpMultilinearJumps t [0] = .ok 0 ∧ interpMultilinearJumps t [1] = .ok 2 ∧
    interpMultilinearJumps t [2] = .ok 3 ∧ interpMultilinearJumps t [3] = .ok 7 ∧
    ∃ φ : ℚ → ℚ, Jumps [1, 3] [0, 2, 4, 7] φ := by
  obtain ⟨t, ht, hφ, h⟩ := (C186_one_axis_partial (g := [1, 3]) (f := [0, 2, 4, (7 : ℚ)]) (by simp) (by norm_num)).2 rfl
  obtain ⟨φ, hφ⟩ := hφ
  have e0 := hφ.below 1 0 rfl (by norm_num)
  have e3 := hφ.above 3 3 rfl (by norm_num)
  obtain ⟨u, v, hu, hv, e⟩ := hφ.between 0 1 3 rfl rfl
  obtain rfl : 2 = u := Option.some.inj hu
  obtain rfl : 4 = v := Option.some.inj hv
  refine ⟨t, ht, ?_, ?_, ?_, ?_, φ, hφ⟩
  · rw [(h φ hφ 0).1, ← Option.some.inj e0]
  · rw [(h φ hφ 1).1, e 1 (by norm_num) (by norm_num)]; norm_num
  · rw [(h φ hφ 2).1, e 2 (by norm_num) (by norm_num)]; norm_num
  · rw [(h φ hφ 3).1, ← Option.some.inj e3]

/-- C186 is refuted: a grid of two axes with two nodes each is accepted with the eight values that the constructor asks for, and its last node cannot be evaluated; with the
sixteen values that the array needs it is refused. -/
theorem C186_refuted : ∃ t : NDInterp ℚ, newJumps [[0, 1], [0, 1]] (List.replicate 8 1) = .ok t ∧ interpMultilinearJumps t [1, 1] = .ub ∧
    newJumps [[0, 1], [0, 1]] (List.replicate 16 (1 : ℚ)) = .throws .invalidArgument := by
  have hg : Axes [[0, 1], [0, (1 : ℚ)]] := ⟨by simp, by simp, by simp⟩
  refine ⟨⟨[[0, 1], [0, 1]], List.replicate 8 1⟩, rfl, ?_, (C186_several_axes hg (by simp) _).1 rfl⟩
  exact ((C186_several_axes hg (by simp) (List.replicate 8 1)).2 _ rfl [1, 1] (.cons ⟨1, rfl, le_refl _⟩ (.cons ⟨1, rfl, le_refl _⟩ .nil))).1

end MU
