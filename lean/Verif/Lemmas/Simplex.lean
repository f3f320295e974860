import Verif.Lemmas.LinterpCube

set_option linter.unusedSectionVars false
set_option linter.unusedSimpArgs false

/-! The walk along the vertices of a simplex. -/

namespace MU.NDInterp
open Spec

variable {K : Type} [Field K] [LinearOrder K] [IsStrictOrderedRing K]

/-- A vertex of the unit cube. -/
def Bits (N : Nat) (u : List Int) : Prop := u.length = N ∧ ∀ v ∈ u, v = 0 ∨ v = 1

/-- Indices of the vertex `u`. -/
def sel : List (Nat × Nat × K) → List Int → List Nat
  | w :: ws, v :: vs => (if v = 0 then w.1 else w.2.1) :: sel ws vs
  | _, _ => []

/-- Coordinates of the node of given indices. -/
def coords : List (List K) → List Nat → List K
  | g :: gs, i :: is => g.getD i 0 :: coords gs is
  | _, _ => []

theorem Bits.cons {N : Nat} {v : Int} {u : List Int} (h : Bits (N + 1) (v :: u)) : (v = 0 ∨ v = 1) ∧ Bits N u :=
  ⟨h.2 v (by simp), by simpa using h.1, fun w hw => h.2 w (by simp [hw])⟩

theorem fIndex_sel {grids : List (List K)} {x : List K} {cs : List Int} {ys : List K} {ws : List (Nat × Nat × K)}
    (h : AxesRes grids x cs ys ws) {u : List Int} (hu : Bits grids.length u) :
    fIndex grids cs u = (sel ws u).map (fun (n : Nat) => (n : Int)) := by
  induction h generalizing u with
  | nil => rfl
  | @cons g gs x xs c cs y ys lo hi ws h1 h2 ih =>
    cases u with
    | nil => simp [Bits] at hu
    | cons v u =>
      obtain ⟨hv, hu'⟩ := hu.cons
      simp only [fIndex, sel, List.map_cons]
      rw [ih hu']
      congr 1
      rcases hv with rfl | rfl
      · exact h1.pick0
      · exact h1.pick1

theorem sel_isNode {grids : List (List K)} {x : List K} {cs : List Int} {ys : List K} {ws : List (Nat × Nat × K)}
    (h : AxesRes grids x cs ys ws) {u : List Int} (hu : Bits grids.length u) : IsNode grids (sel ws u) (coords grids (sel ws u)) := by
  induction h generalizing u with
  | nil => cases u with
    | nil => exact .nil
    | cons v u => simp [Bits] at hu
  | @cons g gs x xs c cs y ys lo hi ws h1 h2 ih =>
    cases u with
    | nil => simp [Bits] at hu
    | cons v u =>
      obtain ⟨hv, hu'⟩ := hu.cons
      refine .cons ?_ (ih hu')
      have hl : (if v = 0 then lo else hi) < g.length := by
        split_ifs
        · exact h1.lo_lt
        · exact h1.hi_lt
      simp [List.getD, List.getElem?_eq_getElem hl]

theorem isNode_len {grids : List (List K)} {idx : List Nat} {x : List K} (h : IsNode grids idx x) : x.length = grids.length := by
  induction h with
  | nil => rfl
  | cons _ _ ih => simp [ih]

theorem inBox_len {grids : List (List K)} {x : List K} (h : InBox grids x) : x.length = grids.length := by
  induction h with
  | nil => rfl
  | cons _ _ _ _ _ ih => simp [ih]

theorem isNode_inside {grids : List (List K)} {idx : List Nat} {x : List K} (h : IsNode grids idx x) :
    Inside idx (grids.map List.length) := by
  induction h with
  | nil => exact .nil
  | cons hi _ ih => exact .cons (List.getElem?_eq_some_iff.mp hi).1 ih

/-- In the box, the coordinate of a vertex along an axis is affine in its bit, and at the fraction it is the coordinate of the point. -/
theorem coord_affine {grids : List (List K)} {x : List K} {cs : List Int} {ys : List K} {ws : List (Nat × Nat × K)}
    (h : AxesRes grids x cs ys ws) (hb : InBox grids x) (d : Nat) (hd : d < x.length) :
    ∃ A B ξ : K, ys[d]? = some ξ ∧ A + ξ * B = x[d] ∧
      ∀ u, Bits grids.length u → (coords grids (sel ws u)).getD d 0 = A + (u.getD d 0 : Int) * B := by
  induction h generalizing d with
  | nil => simp at hd
  | @cons g gs x xs c cs y ys lo hi ws h1 h2 ih =>
    cases hb with
    | @cons _ _ _ _ a b ha hb' hax hxb hb =>
    cases d with
    | succ d =>
      obtain ⟨A, B, ξ, e1, e2, e3⟩ := ih hb d (by simpa using hd)
      refine ⟨A, B, ξ, by simpa using e1, by simpa using e2, ?_⟩
      intro u hu
      cases u with
      | nil => simp [Bits] at hu
      | cons v u =>
        have := e3 u hu.cons.2
        simpa [sel, coords] using this
    | zero =>
      refine ⟨g.getD lo 0, g.getD hi 0 - g.getD lo 0, y, by simp, ?_, ?_⟩
      · simp only [List.getElem_cons_zero]
        rw [List.head?_eq_getElem?] at ha
        rw [List.getLast?_eq_getElem?] at hb'
        cases h1 with
        | below a' h0 hx => rw [ha] at h0; cases h0; exact absurd hax (not_le.mpr hx)
        | above b' h0 hx =>
          rw [hb'] at h0; cases h0
          simp [List.getD, hb']
          exact le_antisymm hx hxb
        | inside c' a' b' h0 h3 h4 h5 =>
          have hd' : b' - a' ≠ 0 := (sub_pos.mpr (lt_of_le_of_lt h4 h5)).ne'
          simp only [List.getD, h0, h3, Option.getD_some]
          rw [div_mul_cancel₀ _ hd']; ring
      · intro u hu
        cases u with
        | nil => simp [Bits] at hu
        | cons v u =>
          rcases hu.cons.1 with rfl | rfl
          · simp [sel, coords]
          · simp [sel, coords]

/-- The vertices of the walk with their weights: `p` is the previous fraction, `v` the current vertex. -/
def walkTerms : List (K × Nat) → K → List Int → List (K × List Int)
  | [], p, v => [(1 - p, v)]
  | (ξ, d) :: r, p, v => (ξ - p, v) :: walkTerms r ξ (v.modify d (· - 1))

theorem walk_eq (t : NDInterp K) (cells : List Int) (G : List Int → K) (order : List (K × Nat)) (p A : K) (v : List Int)
    (hG : ∀ w ∈ walkTerms order p v, getFVal t cells w.2 = .ok (G w.2)) :
    simplexWalk t cells order v (G v) (A + (1 - p) * G v) =
      .ok (A + ((walkTerms order p v).map (fun w => w.1 * G w.2)).sum) := by
  induction order generalizing p A v with
  | nil => simp [simplexWalk, walkTerms]
  | cons o r ih =>
    obtain ⟨ξ, d⟩ := o
    simp only [walkTerms, List.mem_cons, forall_eq_or_imp] at hG
    obtain ⟨_, hG⟩ := hG
    have hv1 : getFVal t cells (v.modify d (· - 1)) = .ok (G (v.modify d (· - 1))) := by
      cases r with
      | nil => exact hG (1 - ξ, v.modify d (· - 1)) (by simp [walkTerms])
      | cons o' r' => exact hG (o'.1 - ξ, v.modify d (· - 1)) (by simp [walkTerms])
    have := ih ξ (A + (ξ - p) * G v) (v.modify d (· - 1)) hG
    simp only [simplexWalk, hv1, Res.ok_bind, walkTerms, List.map_cons, List.sum_cons]
    rw [show A + (1 - p) * G v + (1 - ξ) * (G (v.modify d (· - 1)) - G v) =
      A + (ξ - p) * G v + (1 - ξ) * G (v.modify d (· - 1)) by ring, this]
    congr 1; ring

theorem walkTerms_nonneg {order : List (K × Nat)} {p : K} {v : List Int} (hp : p ≤ 1) (hle : ∀ o ∈ order, p ≤ o.1 ∧ o.1 ≤ 1)
    (hs : order.Pairwise (fun a b => a.1 ≤ b.1)) : ∀ w ∈ walkTerms order p v, 0 ≤ w.1 := by
  induction order generalizing p v with
  | nil => simpa [walkTerms] using hp
  | cons o r ih =>
    obtain ⟨ξ, d⟩ := o
    rw [List.pairwise_cons] at hs
    intro w hw
    rcases List.mem_cons.mp hw with rfl | hw
    · exact sub_nonneg.mpr (hle (ξ, d) (by simp)).1
    · exact ih (hle (ξ, d) (by simp)).2 (fun o ho => ⟨hs.1 o ho, (hle o (by simp [ho])).2⟩) hs.2 w hw

theorem walkTerms_sum (order : List (K × Nat)) (p : K) (v : List Int) :
    ((walkTerms order p v).map (fun w => w.1)).sum = 1 - p := by
  induction order generalizing p v with
  | nil => simp [walkTerms]
  | cons o r ih => simp [walkTerms, ih]

theorem walkTerms_bits {N : Nat} {order : List (K × Nat)} {p : K} {v : List Int} (hv : Bits N v)
    (hone : ∀ o ∈ order, v[o.2]? = some 1) (hnd : (order.map (·.2)).Nodup) : ∀ w ∈ walkTerms order p v, Bits N w.2 := by
  induction order generalizing p v with
  | nil => simpa [walkTerms] using hv
  | cons o r ih =>
    obtain ⟨ξ, d⟩ := o
    rw [List.map_cons, List.nodup_cons] at hnd
    intro w hw
    rcases List.mem_cons.mp hw with rfl | hw
    · exact hv
    · refine ih ?_ ?_ hnd.2 w hw
      · refine ⟨by simpa using hv.1, fun z hz => ?_⟩
        obtain ⟨i, hi, rfl⟩ := List.getElem_of_mem hz
        rw [List.getElem_modify]
        have hi' : i < v.length := by simpa using hi
        split_ifs with hdi
        · have := hone (ξ, d) (by simp)
          simp only at this
          rw [hdi, List.getElem?_eq_getElem hi'] at this
          left; simp at this; omega
        · exact hv.2 _ (List.getElem_mem _)
      · intro o ho
        have hne : d ≠ o.2 := by
          rintro rfl
          exact hnd.1 (List.mem_map_of_mem (f := (·.2)) ho)
        rw [List.getElem?_modify]
        simp [hone o (by simp [ho]), hne]

theorem walkTerms_coord_absent {order : List (K × Nat)} {p : K} {v : List Int} {d : Nat} (hd : d ∉ order.map (·.2)) :
    ((walkTerms order p v).map (fun w => w.1 * ((w.2.getD d 0 : Int) : K))).sum = (1 - p) * ((v.getD d 0 : Int) : K) := by
  induction order generalizing p v with
  | nil => simp [walkTerms]
  | cons o r ih =>
    obtain ⟨ξ, e⟩ := o
    simp only [List.map_cons, List.mem_cons, not_or] at hd
    simp only [walkTerms, List.map_cons, List.sum_cons]
    rw [ih hd.2]
    have : (v.modify e (· - 1)).getD d 0 = v.getD d 0 := by
      simp only [List.getD, List.getElem?_modify, if_neg (Ne.symm hd.1)]
      simp
    rw [this]; ring

theorem walkTerms_coord {order : List (K × Nat)} {p ξ : K} {v : List Int} {d : Nat} (hd : (ξ, d) ∈ order)
    (hnd : (order.map (·.2)).Nodup) (hv : v[d]? = some 1) :
    ((walkTerms order p v).map (fun w => w.1 * ((w.2.getD d 0 : Int) : K))).sum = ξ - p := by
  induction order generalizing p v with
  | nil => simp at hd
  | cons o r ih =>
    obtain ⟨η, e⟩ := o
    rw [List.map_cons, List.nodup_cons] at hnd
    simp only [walkTerms, List.map_cons, List.sum_cons]
    rcases List.mem_cons.mp hd with heq | hd
    · cases heq
      rw [walkTerms_coord_absent hnd.1]
      have : (v.modify d (· - 1)).getD d 0 = 0 := by simp [List.getD, List.getElem?_modify, hv]
      rw [this]
      simp [List.getD, hv]
    · have hne : e ≠ d := by
        rintro rfl
        exact hnd.1 (List.mem_map_of_mem (f := (·.2)) hd)
      rw [ih hd hnd.2 (by simp [List.getElem?_modify, hne, hv])]
      simp [List.getD, hv]

/-- A cell of the box around the point whose vertices include those used by the code. -/
theorem exists_cell {grids : List (List K)} (hinc : ∀ g ∈ grids, g.Pairwise (· < ·)) (h2 : ∀ g ∈ grids, 2 ≤ g.length)
    {x : List K} {cs : List Int} {ys : List K} {ws : List (Nat × Nat × K)} (h : AxesRes grids x cs ys ws) (hb : InBox grids x) :
    ∃ cell, Brackets grids cell x ∧ ∀ u, Bits grids.length u → VertexOf cell (sel ws u) := by
  induction h with
  | nil =>
    refine ⟨[], .nil, fun u hu => ?_⟩
    cases u with
    | nil => exact .nil
    | cons v u => simp [Bits] at hu
  | @cons g gs x xs c cs y ys lo hi ws h1 h3 ih =>
    cases hb with
    | @cons _ _ _ _ a b ha hb' hax hxb hb =>
    obtain ⟨cell, hcell, hv⟩ := ih (fun g' h' => hinc g' (by simp [h'])) (fun g' h' => h2 g' (by simp [h'])) hb
    have hg2 := h2 g (by simp)
    rw [List.head?_eq_getElem?] at ha
    rw [List.getLast?_eq_getElem?] at hb'
    have wrap : ∀ (k : Nat) (a' b' : K), (lo = k ∨ lo = k + 1) → (hi = k ∨ hi = k + 1) → ∀ u, Bits (g :: gs).length u →
        VertexOf ((k, a', b') :: cell) (sel ((lo, hi, y) :: ws) u) := by
      intro k a' b' h1 h2 u hu
      cases u with
      | nil => simp [Bits] at hu
      | cons v u =>
        refine .cons ?_ (hv u hu.cons.2)
        simp only
        split_ifs
        · exact h1
        · exact h2
    cases h1 with
    | below a' h0 hx => rw [ha] at h0; cases h0; exact absurd hax (not_le.mpr hx)
    | above b' h0 hx =>
      have h5 : g[g.length - 2]? = some (g[g.length - 2]'(by omega)) := List.getElem?_eq_getElem _
      refine ⟨(g.length - 2, _, b) :: cell, .cons h5 (by rw [show g.length - 2 + 1 = g.length - 1 by omega]; exact hb') ?_ hxb hcell,
        wrap _ _ _ (by omega) (by omega)⟩
      rw [hb'] at h0; cases h0
      exact le_trans (getElem?_le (hinc g (by simp)) h5 hb' (by omega)) hx
    | inside k a' b' h0 h1 h3 h4 =>
      exact ⟨(_, a', b') :: cell, .cons h0 h1 h3 h4.le hcell, wrap _ _ _ (by simp) (by simp)⟩

theorem AxesRes.frac {grids : List (List K)} {x : List K} {cs : List Int} {ys : List K} {ws : List (Nat × Nat × K)}
    (h : AxesRes grids x cs ys ws) : ∀ y ∈ ys, 0 ≤ y ∧ y ≤ 1 := by
  induction h with
  | nil => simp
  | cons h1 _ ih =>
    intro y hy
    rcases List.mem_cons.mp hy with rfl | hy
    · exact h1.frac
    · exact ih y hy

theorem simplex_terms_all {grids : List (List K)} (hg : Axes grids) {x : List K} (hx : x.length = grids.length) :
    ∃ cs ys ws, AxesRes grids x cs ys ws ∧ ∀ (values : List K) (F : List Nat → K), Holds (grids.map List.length) values F →
      ∀ sort : List (K × Nat) → List (K × Nat), IsSort sort →
      (∀ w ∈ walkTerms (sort ys.zipIdx) 0 (List.replicate grids.length 1), 0 ≤ w.1 ∧ Bits grids.length w.2) ∧
      (∀ d ξ, ys[d]? = some ξ → ((walkTerms (sort ys.zipIdx) 0 (List.replicate grids.length 1)).map
        (fun w => w.1 * ((w.2.getD d 0 : Int) : K))).sum = ξ) ∧
      interpSimplex sort ⟨grids, values⟩ x =
        .ok ((walkTerms (sort ys.zipIdx) 0 (List.replicate grids.length 1)).map (fun w => w.1 * F (sel ws w.2))).sum := by
  obtain ⟨cs, ys, ws, he, hr⟩ := axes_res hg.nonempty hg.increasing hx
  have hlen : ys.length = grids.length := by rw [hr.length.2, List.length_map, hr.length.1]
  refine ⟨cs, ys, ws, hr, fun values F hF sort hsort => ?_⟩
  obtain ⟨hperm, hsrt⟩ := hsort ys.zipIdx
  have hfr := hr.frac
  have hones : Bits grids.length (List.replicate grids.length 1) :=
    ⟨by simp, fun v hv => .inr (List.eq_of_mem_replicate hv)⟩
  have hmem : ∀ o ∈ sort ys.zipIdx, o.2 < grids.length ∧ ys[o.2]? = some o.1 := by
    intro o ho
    have := List.mem_zipIdx_iff_getElem?.mp (hperm.mem_iff.mp ho)
    exact ⟨hlen ▸ (List.getElem?_eq_some_iff.mp this).1, this⟩
  have hnd : ((sort ys.zipIdx).map (·.2)).Nodup := by
    rw [(hperm.map _).nodup_iff]
    have : ys.zipIdx.map (·.2) = List.range ys.length := by
      simp [List.range_eq_range']
    rw [this]; exact List.nodup_range
  have hone : ∀ o ∈ sort ys.zipIdx, (List.replicate grids.length (1 : Int))[o.2]? = some 1 := by
    intro o ho
    rw [List.getElem?_replicate, if_pos (hmem o ho).1]
  have hbits := walkTerms_bits (p := (0 : K)) hones hone hnd
  have hnn := walkTerms_nonneg (p := (0 : K)) (v := List.replicate grids.length 1) zero_le_one
    (fun o ho => hfr o.1 (List.mem_of_getElem? (hmem o ho).2)) hsrt
  refine ⟨fun w hw => ⟨hnn w hw, hbits w hw⟩, ?_, ?_⟩
  · intro d ξ hd
    have hmem' : (ξ, d) ∈ sort ys.zipIdx := hperm.mem_iff.mpr (List.mem_zipIdx_iff_getElem?.mpr hd)
    rw [walkTerms_coord hmem' hnd (hone _ hmem'), sub_zero]
  · have hG : ∀ u, Bits grids.length u → getFVal ⟨grids, values⟩ cs u = .ok (F (sel ws u)) := by
      intro u hu
      unfold getFVal
      simp only
      rw [fIndex_sel hr hu, mdRead_eq hF (isNode_inside (sel_isNode hr hu))]
    have := walk_eq ⟨grids, values⟩ cs (fun u => F (sel ws u)) (sort ys.zipIdx) 0 0 (List.replicate grids.length 1)
      (fun w hw => hG _ (hbits w hw))
    unfold interpSimplex
    simp only [he, Res.ok_bind, hG _ hones]
    simp only [zero_add, sub_zero, one_mul] at this
    exact this

theorem simplex_terms {grids : List (List K)} {values : List K} {F : List Nat → K} (hg : Axes grids)
    (hF : Holds (grids.map List.length) values F) {sort : List (K × Nat) → List (K × Nat)} (hsort : IsSort sort) {x : List K}
    (hx : x.length = grids.length) :
    ∃ cs ys ws, AxesRes grids x cs ys ws ∧
      (∀ w ∈ walkTerms (sort ys.zipIdx) 0 (List.replicate grids.length 1), 0 ≤ w.1 ∧ Bits grids.length w.2) ∧
      (∀ d ξ, ys[d]? = some ξ → ((walkTerms (sort ys.zipIdx) 0 (List.replicate grids.length 1)).map
        (fun w => w.1 * ((w.2.getD d 0 : Int) : K))).sum = ξ) ∧
      interpSimplex sort ⟨grids, values⟩ x =
        .ok ((walkTerms (sort ys.zipIdx) 0 (List.replicate grids.length 1)).map (fun w => w.1 * F (sel ws w.2))).sum := by
  obtain ⟨cs, ys, ws, hr, h⟩ := simplex_terms_all hg hx
  exact ⟨cs, ys, ws, hr, h values F hF sort hsort⟩

end MU.NDInterp
