import Verif.Model.Linterp
import Verif.Spec.NGrid
import Verif.Lemmas.Search
import Mathlib.Tactic.Ring
import Mathlib.Tactic.FieldSimp
import Mathlib.Tactic.Linarith
import Mathlib.Data.List.Forall2

set_option linter.unusedSectionVars false
set_option linter.unusedSimpArgs false

/-! Linear interpolation on n-dimensional grids: what the loops compute. -/

namespace MU.NDInterp
open Spec

variable {K : Type} [Field K] [LinearOrder K] [IsStrictOrderedRing K]

/-- What `axis` finds: the cell, the fraction, and the indices of the lower and upper vertices. -/
inductive AxisRes (g : List K) (x : K) : Int → K → Nat → Nat → Prop
  | below (a : K) : g[0]? = some a → x < a → AxisRes g x (-1) 1 0 0
  | above (b : K) : g[g.length - 1]? = some b → b ≤ x → AxisRes g x ((g.length : Int) - 1) 0 (g.length - 1) (g.length - 1)
  | inside (c : Nat) (a b : K) : g[c]? = some a → g[c + 1]? = some b → a ≤ x → x < b →
      AxisRes g x c ((x - a) / (b - a)) c (c + 1)

theorem axis_res {g : List K} (hne : g ≠ []) (hinc : g.Pairwise (· < ·)) (x : K) :
    ∃ c y lo hi, axis g x = .ok (c, y) ∧ AxisRes g x c y lo hi := by
  have hl : 0 < g.length := List.length_pos_of_ne_nil hne
  unfold axis findCell
  rw [vIdx_lt hl, vIdx_lt (show g.length - 1 < g.length by omega)]
  by_cases h1 : x < g[0]
  · refine ⟨-1, 1, 0, 0, by simp [h1], .below g[0] (List.getElem?_eq_getElem _) h1⟩
  · by_cases h2 : g[g.length - 1] ≤ x
    · refine ⟨(g.length : Int) - 1, 0, g.length - 1, g.length - 1, ?_, .above _ (List.getElem?_eq_getElem _) h2⟩
      have : ¬ ((g.length : Int) - 1 = -1) := by omega
      simp [h1, h2, this]
    · obtain ⟨k, hk, hkl, hks⟩ := upperBound_spec (pairwise_lt_le hinc) x
      have hk0 : 0 < k := (hks 0 hl).mpr (not_lt.mp h1)
      have hkn : k < g.length := by
        by_contra hc
        have := (hks (g.length - 1) (by omega)).mp (by omega)
        exact h2 this
      have ha : g[k - 1] ≤ x := (hks (k - 1) (by omega)).mp (by omega)
      have hb : x < g[k] := by
        by_contra hc
        exact absurd ((hks k hkn).mpr (not_lt.mp hc)) (by omega)
      have hd : 0 < g[k] - g[k - 1] := sub_pos.mpr (lt_of_le_of_lt ha hb)
      have hy0 : 0 ≤ (x - g[k - 1]) / (g[k] - g[k - 1]) := div_nonneg (sub_nonneg.mpr ha) hd.le
      have hy1 : (x - g[k - 1]) / (g[k] - g[k - 1]) ≤ 1 := (div_le_one hd).mpr (by linarith)
      refine ⟨((k - 1 : Nat) : Int), (x - g[k - 1]) / (g[k] - g[k - 1]), k - 1, k - 1 + 1, ?_, ?_⟩
      · have hc : ((k : Int) - 1) = ((k - 1 : Nat) : Int) := by omega
        have e1 : ¬ (((k - 1 : Nat) : Int) = -1) := by omega
        have e2 : ¬ (((k - 1 : Nat) : Int) = (g.length : Int) - 1) := by omega
        have e3 : (((k - 1 : Nat) : Int) + 1).toNat = k := by omega
        simp only [Res.ok_bind, h1, h2, if_false, hk, Res.pure_eq, hc, e1, e2, e3, Int.toNat_natCast]
        rw [vIdx_lt (show k - 1 < g.length by omega), vIdx_lt hkn]
        simp only [Res.ok_bind]
        rw [fdiv_ok hd.ne']
        simp [not_lt.mpr hy0, not_lt.mpr hy1]
      · refine .inside (k - 1) g[k - 1] g[k] (List.getElem?_eq_getElem _) ?_ ha hb
        rw [show k - 1 + 1 = k by omega]; exact List.getElem?_eq_getElem _

theorem AxisRes.lo_lt {g : List K} {x y : K} {c : Int} {lo hi : Nat} (h : AxisRes g x c y lo hi) : lo < g.length := by
  cases h with
  | below a h0 => exact (List.getElem?_eq_some_iff.mp h0).1
  | above b h0 => exact (List.getElem?_eq_some_iff.mp h0).1
  | inside c a b h0 => exact (List.getElem?_eq_some_iff.mp h0).1

theorem AxisRes.hi_lt {g : List K} {x y : K} {c : Int} {lo hi : Nat} (h : AxisRes g x c y lo hi) : hi < g.length := by
  cases h with
  | below a h0 => exact (List.getElem?_eq_some_iff.mp h0).1
  | above b h0 => exact (List.getElem?_eq_some_iff.mp h0).1
  | inside c a b h0 h1 => exact (List.getElem?_eq_some_iff.mp h1).1

theorem AxisRes.frac {g : List K} {x y : K} {c : Int} {lo hi : Nat} (h : AxisRes g x c y lo hi) : 0 ≤ y ∧ y ≤ 1 := by
  cases h with
  | below a h0 => simp
  | above b h0 => simp
  | inside c a b h0 h1 ha hb =>
    have hd : 0 < b - a := by linarith
    exact ⟨div_nonneg (by linarith) hd.le, (div_le_one hd).mpr (by linarith)⟩

/-- The index of `get_f_val` along one axis. -/
def pick (n : Nat) (c v : Int) : Int :=
  if c < 0 then 0 else if (n : Int) - 1 ≤ c then (n : Int) - 1 else c + v

theorem AxisRes.pick0 {g : List K} {x y : K} {c : Int} {lo hi : Nat} (h : AxisRes g x c y lo hi) :
    pick g.length c 0 = lo := by
  have := h.lo_lt
  cases h with
  | below a h0 => simp [pick]
  | above b h0 => unfold pick; split_ifs <;> omega
  | inside c a b h0 h1 ha hb =>
    have := (List.getElem?_eq_some_iff.mp h1).1
    unfold pick; split_ifs <;> omega

theorem AxisRes.pick1 {g : List K} {x y : K} {c : Int} {lo hi : Nat} (h : AxisRes g x c y lo hi) :
    pick g.length c 1 = hi := by
  have := h.lo_lt
  cases h with
  | below a h0 => simp [pick]
  | above b h0 => unfold pick; split_ifs <;> omega
  | inside c a b h0 h1 ha hb =>
    have := (List.getElem?_eq_some_iff.mp h1).1
    unfold pick; split_ifs <;> omega

/-- What `axes` finds. -/
inductive AxesRes : (grids : List (List K)) → (x : List K) → List Int → List K → List (Nat × Nat × K) → Prop
  | nil : AxesRes [] [] [] [] []
  | cons {g gs x xs c cs y ys lo hi ws} : AxisRes g x c y lo hi → AxesRes gs xs cs ys ws →
      AxesRes (g :: gs) (x :: xs) (c :: cs) (y :: ys) ((lo, hi, y) :: ws)

theorem axes_res {grids : List (List K)} (hne : ∀ g ∈ grids, g ≠ []) (hinc : ∀ g ∈ grids, g.Pairwise (· < ·)) {x : List K}
    (hx : x.length = grids.length) :
    ∃ cs ys ws, axes grids x = .ok (cs, ys) ∧ AxesRes grids x cs ys ws := by
  induction grids generalizing x with
  | nil =>
    cases x with
    | nil => exact ⟨[], [], [], rfl, .nil⟩
    | cons a t => simp at hx
  | cons g gs ih =>
    cases x with
    | nil => simp at hx
    | cons x xs =>
      obtain ⟨c, y, lo, hi, he, hr⟩ := axis_res (hne g (by simp)) (hinc g (by simp)) x
      obtain ⟨cs, ys, ws, he', hr'⟩ := ih (fun g' h' => hne g' (by simp [h'])) (fun g' h' => hinc g' (by simp [h']))
        (x := xs) (by simpa using hx)
      exact ⟨c :: cs, y :: ys, (lo, hi, y) :: ws, by simp [axes, he, he'], .cons hr hr'⟩

/-- Iterated linear interpolation from the vertex indices and fractions. -/
def cube : List (Nat × Nat × K) → (List Nat → K) → K
  | [], F => F []
  | (lo, hi, y) :: ws, F =>
    cube ws (fun is => F (lo :: is)) + y * (cube ws (fun is => F (hi :: is)) - cube ws (fun is => F (lo :: is)))

/-- The values at the vertices in the order of the code. -/
def verts : List (Nat × Nat × K) → (List Nat → K) → List K
  | [], F => [F []]
  | (lo, hi, _) :: ws, F => verts ws (fun is => F (lo :: is)) ++ verts ws (fun is => F (hi :: is))

theorem verts_length (ws : List (Nat × Nat × K)) (F : List Nat → K) : (verts ws F).length = 2 ^ ws.length := by
  induction ws generalizing F with
  | nil => rfl
  | cons w ws ih => obtain ⟨lo, hi, y⟩ := w; simp [verts, ih, pow_succ]; omega

theorem unitcube_verts (ws : List (Nat × Nat × K)) (hne : ws ≠ []) (F : List Nat → K) :
    unitcube (verts ws F) (ws.map (·.2.2)) = .ok (cube ws F) := by
  induction ws generalizing F with
  | nil => exact absurd rfl hne
  | cons w ws ih =>
    obtain ⟨lo, hi, y⟩ := w
    cases ws with
    | nil => simp [verts, unitcube, cube, vIdx]
    | cons w' ws' =>
      have hlen := verts_length (w' :: ws') (fun is => F (lo :: is))
      have hlen' := verts_length (w' :: ws') (fun is => F (hi :: is))
      rw [verts]
      simp only [List.map_cons, unitcube]
      rw [show (verts (w' :: ws') (fun is => F (lo :: is)) ++ verts (w' :: ws') (fun is => F (hi :: is))).length / 2
        = (verts (w' :: ws') (fun is => F (lo :: is))).length by rw [List.length_append]; omega]
      rw [List.take_left', List.drop_left']
      · have h1 := ih (by simp) (fun is => F (lo :: is))
        have h2 := ih (by simp) (fun is => F (hi :: is))
        simp only [List.map_cons] at h1 h2
        rw [h1, h2]
        rfl
      · rfl
      · rfl

/-- The indices selected by the bits of the vertex number. -/
def pickIdx : List (Nat × Nat × K) → Nat → List Nat
  | [], _ => []
  | (lo, hi, _) :: ws, v => (if v / 2 ^ ws.length % 2 = 0 then lo else hi) :: pickIdx ws v

theorem pickIdx_add (ws : List (Nat × Nat × K)) (m : Nat) (hm : ws.length ≤ m) (v : Nat) :
    pickIdx ws (2 ^ m + v) = pickIdx ws v := by
  induction ws generalizing m with
  | nil => rfl
  | cons w ws ih =>
    obtain ⟨lo, hi, y⟩ := w
    simp only [List.length_cons] at hm
    simp only [pickIdx]
    rw [ih m (by omega)]
    have : (2 ^ m + v) / 2 ^ ws.length % 2 = v / 2 ^ ws.length % 2 := by
      obtain ⟨k, rfl⟩ : ∃ k, m = ws.length + 1 + k := ⟨m - (ws.length + 1), by omega⟩
      rw [show 2 ^ (ws.length + 1 + k) + v = v + 2 ^ ws.length * (2 * 2 ^ k) by ring,
        Nat.add_mul_div_left _ _ (by positivity)]
      omega
    rw [this]

theorem verts_eq (ws : List (Nat × Nat × K)) (F : List Nat → K) :
    (List.range (2 ^ ws.length)).map (fun v => F (pickIdx ws v)) = verts ws F := by
  induction ws generalizing F with
  | nil => simp [verts, pickIdx]
  | cons w ws ih =>
    obtain ⟨lo, hi, y⟩ := w
    rw [verts, ← ih, ← ih, List.length_cons, pow_succ, Nat.mul_two, List.range_add, List.map_append, List.map_map]
    congr 1
    · apply List.map_congr_left
      intro v hv
      rw [List.mem_range] at hv
      simp [pickIdx, Nat.div_eq_of_lt hv]
    · apply List.map_congr_left
      intro v hv
      rw [List.mem_range] at hv
      have : (2 ^ ws.length + v) / 2 ^ ws.length % 2 = 1 := by
        rw [Nat.add_div_left _ (by positivity), Nat.div_eq_of_lt hv]
      simp only [Function.comp_apply, pickIdx]
      rw [this, pickIdx_add _ _ (le_refl _)]
      simp

theorem vertexBits_succ (n v : Nat) :
    vertexBits (n + 1) v = ((v / 2 ^ n % 2 : Nat) : Int) :: vertexBits n v := by
  unfold vertexBits
  rw [List.range_succ_eq_map, List.map_cons, List.map_map]
  congr 1
  · simp [Nat.shiftRight_eq_div_pow, Nat.and_one_is_mod]
  · apply List.map_congr_left
    intro d _
    simp only [Function.comp_apply]
    rw [show n + 1 - d.succ - 1 = n - d - 1 by omega]

theorem fIndex_bits {grids : List (List K)} {x : List K} {cs : List Int} {ys : List K} {ws : List (Nat × Nat × K)}
    (h : AxesRes grids x cs ys ws) (v : Nat) :
    fIndex grids cs (vertexBits grids.length v) = (pickIdx ws v).map (fun (n : Nat) => (n : Int)) := by
  induction h with
  | nil => rfl
  | @cons g gs x xs c cs y ys lo hi ws h1 h2 ih =>
    have hl : ws.length = gs.length := by
      clear ih h1; induction h2 with
      | nil => rfl
      | cons _ _ ih => simp [ih]
    rw [List.length_cons, vertexBits_succ]
    simp only [fIndex, pickIdx, List.map_cons]
    rw [ih, hl]
    congr 1
    rcases Nat.mod_two_eq_zero_or_one (v / 2 ^ gs.length) with hm | hm
    · rw [hm]; exact h1.pick0
    · rw [hm]; exact h1.pick1

theorem AxesRes.length {grids : List (List K)} {x : List K} {cs : List Int} {ys : List K} {ws : List (Nat × Nat × K)}
    (h : AxesRes grids x cs ys ws) : ws.length = grids.length ∧ ys = ws.map (·.2.2) := by
  induction h with
  | nil => simp
  | cons _ _ ih => simp [ih.1, ih.2]

theorem pickIdx_inside {grids : List (List K)} {x : List K} {cs : List Int} {ys : List K} {ws : List (Nat × Nat × K)}
    (h : AxesRes grids x cs ys ws) (v : Nat) : Inside (pickIdx ws v) (grids.map List.length) := by
  induction h with
  | nil => exact .nil
  | cons h1 h2 ih =>
    refine .cons ?_ ih
    split_ifs
    · exact h1.lo_lt
    · exact h1.hi_lt

theorem mdOffset_eq {sizes idx : List Nat} (h : Inside idx sizes) (acc : Nat) :
    mdOffset sizes (idx.map (fun (n : Nat) => (n : Int))) acc = .ok (acc * sizes.prod + pos sizes idx) := by
  induction h generalizing acc with
  | nil => simp [mdOffset, pos]
  | @cons i n is ns hin _ ih =>
    simp only [List.map_cons, mdOffset, Int.natCast_nonneg, Int.toNat_natCast, Nat.cast_lt, hin, and_self, if_true]
    rw [ih]
    simp only [pos, List.prod_cons]
    congr 1; ring

theorem mdRead_eq {sizes idx : List Nat} {values : List K} {F : List Nat → K} (hF : Holds sizes values F) (h : Inside idx sizes) :
    mdRead sizes values (idx.map (fun (n : Nat) => (n : Int))) = .ok (F idx) := by
  unfold mdRead
  rw [mdOffset_eq h]
  simp only [Res.ok_bind, Nat.zero_mul, Nat.zero_add, vIdx, hF.elem idx h]

theorem interp_cube {grids : List (List K)} {values : List K} {F : List Nat → K} (hg : Axes grids)
    (hF : Holds (grids.map List.length) values F) {x : List K} (hx : x.length = grids.length) :
    ∃ cs ys ws, AxesRes grids x cs ys ws ∧ interpMultilinear ⟨grids, values⟩ x = .ok (cube ws F) := by
  obtain ⟨cs, ys, ws, he, hr⟩ := axes_res hg.nonempty hg.increasing hx
  refine ⟨cs, ys, ws, hr, ?_⟩
  unfold interpMultilinear
  simp only [he, Res.ok_bind]
  have hloop := forRange_ok (lo := 0) (hi := 1 <<< grids.length) (Nat.zero_le _)
    (f := fun v f => do
      let y ← getFValV ⟨grids, values⟩ cs v
      return f ++ [y]) (fun n => (List.range n).map (fun v => F (pickIdx ws v))) (by
      intro i _ _
      unfold getFValV getFVal
      simp only
      rw [fIndex_bits hr, mdRead_eq hF (pickIdx_inside hr i)]
      simp [List.range_succ])
  simp only [List.range_zero, List.map_nil] at hloop
  rw [hloop, Res.ok_bind, Nat.shiftLeft_eq, Nat.one_mul, ← hr.length.1, verts_eq, hr.length.2]
  apply unitcube_verts
  intro hw
  have := hr.length.1
  rw [hw] at this
  exact hg.dims (List.length_eq_zero_iff.mp this.symm)

end MU.NDInterp
