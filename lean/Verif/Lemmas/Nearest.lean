import Verif.Model.RegularGridNearest
import Verif.Lemmas.Simplex

set_option linter.unusedSectionVars false
set_option linter.unusedSimpArgs false

/-! Searches of `RegularGridNearest`. -/

namespace MU.RGN
open Spec NDInterp

variable {K D : Type} [Field K] [LinearOrder K] [IsStrictOrderedRing K]

omit [Field K] [LinearOrder K] [IsStrictOrderedRing K] in
theorem addCoords_run {dim : Nat} (grids : List (List K)) (s : RGN K D) (h : s.grid_list.length + grids.length ≤ dim) :
    (addCoords dim grids).run s = (.ok (), { s with grid_list := s.grid_list ++ grids }) := by
  induction grids generalizing s with
  | nil => simp [addCoords]
  | cons g gs ih =>
    rw [addCoords]
    rw [Act.run_bind_ok (s' := { s with grid_list := s.grid_list ++ [g] }) (a := ())]
    · rw [ih]
      · simp
      · simp at h ⊢; omega
    · simp at h
      have : s.grid_list.length ≠ dim := by omega
      simp [addCoord, this]

omit [Field K] [LinearOrder K] [IsStrictOrderedRing K] in
theorem make_run {dim : Nat} {grids : List (List K)} (h : grids.length = dim) (a : NDArray D) :
    make dim grids a = (.ok (), ⟨grids, a⟩) := by
  unfold make
  rw [Act.run_bind_ok (addCoords_run grids (new K D dim) (by simp [new, h]))]
  simp [addVar, new, h]

omit [Field K] [LinearOrder K] [IsStrictOrderedRing K] in
theorem mdRead_holds {sizes idx : List Nat} {values : List D} {F : List Nat → D} (hF : Holds sizes values F) (h : Inside idx sizes) :
    mdRead sizes values (idx.map (fun (n : Nat) => (n : Int))) = .ok (F idx) := by
  unfold mdRead
  rw [mdOffset_eq h]
  simp only [Res.ok_bind, Nat.zero_mul, Nat.zero_add, vIdx, hF.elem idx h]

theorem nearestIndex_spec {g : List K} (hne : g ≠ []) (hinc : g.Pairwise (· < ·)) (x : K) :
    ∃ i, nearestIndex g x = .ok i ∧ NearestOn g x i := by
  have hl : 0 < g.length := List.length_pos_of_ne_nil hne
  unfold nearestIndex
  rw [vIdx_lt hl, vIdx_lt (show g.length - 1 < g.length by omega)]
  by_cases h1 : x < g[0]
  · refine ⟨0, by simp [h1], g[0], List.getElem?_eq_getElem _, fun j q hj => ?_⟩
    have hle := getElem?_le hinc (List.getElem?_eq_getElem hl) hj (Nat.zero_le _)
    rw [abs_of_neg (by linarith), abs_of_neg (by linarith)]
    refine ⟨by linarith, fun he => ?_⟩
    by_contra hc
    have := getElem?_lt hinc (List.getElem?_eq_getElem hl) hj (by omega)
    linarith
  · by_cases h2 : g[g.length - 1] ≤ x
    · refine ⟨g.length - 1, by simp [h1, h2], g[g.length - 1], List.getElem?_eq_getElem _, fun j q hj => ?_⟩
      have hjl := (List.getElem?_eq_some_iff.mp hj).1
      have hle := getElem?_le hinc hj (List.getElem?_eq_getElem (show g.length - 1 < g.length by omega)) (by omega)
      rw [abs_of_nonneg (by linarith), abs_of_nonneg (by linarith)]
      exact ⟨by linarith, fun _ => by omega⟩
    · obtain ⟨k, hk, hkl, hks⟩ := upperBound_spec (pairwise_lt_le hinc) x
      have hk0 : 0 < k := (hks 0 hl).mpr (not_lt.mp h1)
      have hkn : k < g.length := by
        by_contra hc
        have := (hks (g.length - 1) (by omega)).mp (by omega)
        exact h2 this
      have ha : g[k - 1] ≤ x := (hks (k - 1) (by omega)).mp (by omega)
      have hb : x < g[k] := by
        by_contra hc
        exact absurd ((hks k hkn).mpr (not_lt.mp hc)) (by omega)
      have hk' : k - 1 + 1 = k := by omega
      have below : ∀ j q, g[j]? = some q → j ≤ k - 1 → q ≤ g[k - 1] := fun j q hj h =>
        getElem?_le hinc hj (List.getElem?_eq_getElem (show k - 1 < g.length by omega)) h
      have above : ∀ j q, g[j]? = some q → k ≤ j → g[k] ≤ q := fun j q hj h =>
        getElem?_le hinc (List.getElem?_eq_getElem hkn) hj h
      have above' : ∀ j q, g[j]? = some q → k < j → g[k] < q := fun j q hj h =>
        getElem?_lt hinc (List.getElem?_eq_getElem hkn) hj h
      by_cases h3 : 1 / 2 * (g[k] + g[k - 1]) ≤ x
      · refine ⟨k, ?_, g[k], List.getElem?_eq_getElem _, fun j q hj => ?_⟩
        · simp only [Res.ok_bind, h1, h2, if_false, hk, hk']
          rw [vIdx_lt hkn, vIdx_lt (show k - 1 < g.length by omega)]
          simp only [Res.ok_bind, h3, if_true]
        · rw [abs_of_neg (show x - g[k] < 0 by linarith)]
          rcases Nat.lt_or_ge j k with hjk | hjk
          · have := below j q hj (by omega)
            rw [abs_of_nonneg (by linarith)]
            exact ⟨by linarith, fun _ => by omega⟩
          · have := above j q hj hjk
            rw [abs_of_neg (by linarith)]
            refine ⟨by linarith, fun he => ?_⟩
            by_contra hc
            have := above' j q hj (by omega)
            linarith
      · refine ⟨k - 1, ?_, g[k - 1], List.getElem?_eq_getElem _, fun j q hj => ?_⟩
        · simp only [Res.ok_bind, h1, h2, if_false, hk, hk']
          rw [vIdx_lt hkn, vIdx_lt (show k - 1 < g.length by omega)]
          simp only [Res.ok_bind, h3, if_false]
        · rw [abs_of_nonneg (show 0 ≤ x - g[k - 1] by linarith)]
          rcases Nat.lt_or_ge j k with hjk | hjk
          · have := below j q hj (by omega)
            rw [abs_of_nonneg (by linarith)]
            exact ⟨by linarith, fun _ => by omega⟩
          · have := above j q hj hjk
            rw [abs_of_neg (by linarith)]
            refine ⟨by linarith, fun he => ?_⟩
            exfalso; linarith

theorem nearestLoop_spec {grids : List (List K)} (hne : ∀ g ∈ grids, g ≠ []) (hinc : ∀ g ∈ grids, g.Pairwise (· < ·)) {x : List K}
    (hx : x.length = grids.length) :
    ∃ idx p, nearestLoop grids x = .ok (idx, p) ∧ Nearest grids idx x ∧ IsNode grids idx p := by
  induction grids generalizing x with
  | nil =>
    cases x with
    | nil => exact ⟨[], [], rfl, .nil, .nil⟩
    | cons a t => simp at hx
  | cons g gs ih =>
    cases x with
    | nil => simp at hx
    | cons x xs =>
      obtain ⟨i, hi, hn⟩ := nearestIndex_spec (hne g (by simp)) (hinc g (by simp)) x
      obtain ⟨is, ps, h1, h2, h3⟩ := ih (fun g' h' => hne g' (by simp [h'])) (fun g' h' => hinc g' (by simp [h'])) (x := xs)
        (by simpa using hx)
      obtain ⟨p, hp, hmin⟩ := hn
      exact ⟨i :: is, p :: ps, by simp [nearestLoop, hi, h1, vIdx, hp], .cons ⟨p, hp, hmin⟩ h2, .cons hp h3⟩

theorem surroundingIndex_inside {g : List K} (hinc : g.Pairwise (· < ·)) (hsz : g.length ≤ 2 ^ 32) {x a b : K}
    (ha : g.head? = some a) (hb : g.getLast? = some b) (hax : a ≤ x) (hxb : x < b) :
    ∃ c p q, surroundingIndex g x = .ok c ∧ g[c]? = some p ∧ g[c + 1]? = some q ∧ p ≤ x ∧ x < q := by
  rw [List.head?_eq_getElem?] at ha
  rw [List.getLast?_eq_getElem?] at hb
  obtain ⟨hl, rfl⟩ := List.getElem?_eq_some_iff.mp ha
  obtain ⟨hl', rfl⟩ := List.getElem?_eq_some_iff.mp hb
  unfold surroundingIndex
  rw [vIdx_lt hl, vIdx_lt hl']
  obtain ⟨k, hk, hkl, hks⟩ := upperBound_spec (pairwise_lt_le hinc) x
  have hk0 : 0 < k := (hks 0 hl).mpr hax
  have hkn : k < g.length := by
    by_contra hc
    have := (hks (g.length - 1) (by omega)).mp (by omega)
    exact absurd this (not_le.mpr hxb)
  refine ⟨k - 1, g[k - 1], g[k], ?_, List.getElem?_eq_getElem _, ?_, (hks (k - 1) (by omega)).mp (by omega), ?_⟩
  · simp only [Res.ok_bind, not_lt.mpr hax, not_le.mpr hxb, if_false, hk, Res.pure_eq]
    rw [Nat.mod_eq_of_lt (by omega)]
  · rw [show k - 1 + 1 = k by omega]; exact List.getElem?_eq_getElem _
  · by_contra hc
    exact absurd ((hks k hkn).mpr (not_lt.mp hc)) (by omega)

/-- The cell found inside the box. -/
inductive CellRes : (grids : List (List K)) → (x : List K) → List Nat → List (Nat × Nat × K) → List (Nat × K × K) → Prop
  | nil : CellRes [] [] [] [] []
  | cons {g gs x xs c p q cs ws cell} : g[c]? = some p → g[c + 1]? = some q → p ≤ x → x < q → g.length ≤ 2 ^ 32 →
      CellRes gs xs cs ws cell →
      CellRes (g :: gs) (x :: xs) (c :: cs) ((c, c + 1, 0) :: ws) ((c, p, q) :: cell)

theorem surroundingLoop_inside {grids : List (List K)} (hinc : ∀ g ∈ grids, g.Pairwise (· < ·)) (hsz : ∀ g ∈ grids, g.length ≤ 2 ^ 32)
    {x : List K} (hx : InHalfOpenBox grids x) :
    ∃ cs ws cell, surroundingLoop grids x = .ok cs ∧ CellRes grids x cs ws cell := by
  induction hx with
  | nil => exact ⟨[], [], [], rfl, .nil⟩
  | cons ha hb hax hxb _ ih =>
    rename_i g gs x xs a b _
    obtain ⟨c, p, q, h1, h2, h3, h4, h5⟩ := surroundingIndex_inside (hinc g (by simp)) (hsz g (by simp)) ha hb hax hxb
    obtain ⟨cs, ws, cell, i1, i2⟩ := ih (fun g' h' => hinc g' (by simp [h'])) (fun g' h' => hsz g' (by simp [h']))
    exact ⟨c :: cs, (c, c + 1, 0) :: ws, (c, p, q) :: cell, by simp [surroundingLoop, h1, i1],
      .cons h2 h3 h4 h5 (hsz g (by simp)) i2⟩

theorem CellRes.brackets {grids : List (List K)} {x : List K} {cs : List Nat} {ws : List (Nat × Nat × K)} {cell : List (Nat × K × K)}
    (h : CellRes grids x cs ws cell) : Brackets grids cell x := by
  induction h with
  | nil => exact .nil
  | cons h1 h2 h3 h4 _ _ ih => exact .cons h1 h2 h3 h4.le ih

theorem CellRes.wlen {grids : List (List K)} {x : List K} {cs : List Nat} {ws : List (Nat × Nat × K)} {cell : List (Nat × K × K)}
    (h : CellRes grids x cs ws cell) : ws.length = grids.length := by
  induction h with
  | nil => rfl
  | cons _ _ _ _ _ _ ih => simp [ih]

omit [Field K] [LinearOrder K] [IsStrictOrderedRing K] in
theorem vertexBits_succ (n v : Nat) : vertexBits (n + 1) v = (v / 2 ^ n % 2) :: vertexBits n v := by
  unfold vertexBits
  rw [List.range_succ_eq_map, List.map_cons, List.map_map]
  congr 1
  · simp [Nat.shiftRight_eq_div_pow, Nat.and_one_is_mod]
  · apply List.map_congr_left
    intro d _
    simp only [Function.comp_apply]
    rw [show n + 1 - d.succ - 1 = n - d - 1 by omega]

theorem CellRes.indices {grids : List (List K)} {x : List K} {cs : List Nat} {ws : List (Nat × Nat × K)} {cell : List (Nat × K × K)}
    (h : CellRes grids x cs ws cell) (v : Nat) : nodeIndices grids cs (vertexBits grids.length v) = pickIdx ws v := by
  induction h with
  | nil => rfl
  | @cons g gs x xs c p q cs ws cell h1 h2 h3 h4 h5 h6 ih =>
    rw [List.length_cons, vertexBits_succ]
    simp only [nodeIndices, pickIdx]
    rw [ih, h6.wlen]
    have hl := (List.getElem?_eq_some_iff.mp h2).1
    rw [usub_of_le (by omega) (by omega)]
    congr 1
    rcases Nat.mod_two_eq_zero_or_one (v / 2 ^ gs.length) with hm | hm
    · rw [hm]; simp; omega
    · rw [hm]; simp; omega

theorem CellRes.vertex {grids : List (List K)} {x : List K} {cs : List Nat} {ws : List (Nat × Nat × K)} {cell : List (Nat × K × K)}
    (h : CellRes grids x cs ws cell) (v : Nat) : VertexOf cell (pickIdx ws v) := by
  induction h with
  | nil => exact .nil
  | cons h1 h2 h3 h4 h5 h6 ih =>
    refine .cons ?_ ih
    simp only
    split_ifs
    · exact .inl rfl
    · exact .inr rfl

theorem CellRes.isNode {grids : List (List K)} {x : List K} {cs : List Nat} {ws : List (Nat × Nat × K)} {cell : List (Nat × K × K)}
    (h : CellRes grids x cs ws cell) (v : Nat) :
    ∃ p, nodeCoords grids (pickIdx ws v) = .ok p ∧ IsNode grids (pickIdx ws v) p := by
  induction h with
  | nil => exact ⟨[], rfl, .nil⟩
  | @cons g gs x xs c p q cs ws cell h1 h2 h3 h4 h5 h6 ih =>
    obtain ⟨r, i1, i2⟩ := ih
    simp only [pickIdx, nodeCoords]
    split_ifs
    · exact ⟨p :: r, by simp [vIdx, h1, i1], .cons h1 i2⟩
    · exact ⟨q :: r, by simp [vIdx, h2, i1], .cons h2 i2⟩

/-- Every vertex of the cell occurs at exactly one vertex number. -/
theorem CellRes.unique {grids : List (List K)} {x : List K} {cs : List Nat} {ws : List (Nat × Nat × K)} {cell : List (Nat × K × K)}
    (h : CellRes grids x cs ws cell) {idx : List Nat} (hv : VertexOf cell idx) :
    ∃ v, v < 2 ^ ws.length ∧ pickIdx ws v = idx ∧ ∀ v', v' < 2 ^ ws.length → pickIdx ws v' = idx → v' = v := by
  induction h generalizing idx with
  | nil => cases hv; exact ⟨0, by simp, rfl, fun v' h _ => by simpa using h⟩
  | @cons g gs x xs c p q cs ws cell h1 h2 h3 h4 h5 h6 ih =>
    cases hv with
    | @cons _ i _ is hi hv =>
      obtain ⟨v, j1, j2, j3⟩ := ih hv
      have hdiv : ∀ v', v' < 2 ^ (ws.length + 1) → v' / 2 ^ ws.length = 0 ∨ v' / 2 ^ ws.length = 1 := fun v' h' => by
        have : v' / 2 ^ ws.length < 2 := by
          rw [Nat.div_lt_iff_lt_mul (by positivity), ← Nat.pow_succ']; exact h'
        revert this
        generalize v' / 2 ^ ws.length = z
        omega
      have hdec : ∀ v', v' < 2 ^ (ws.length + 1) → v' = 2 ^ ws.length * (v' / 2 ^ ws.length) + v' % 2 ^ ws.length :=
        fun v' _ => (Nat.div_add_mod v' _).symm
      have hpick : ∀ v', v' < 2 ^ (ws.length + 1) → pickIdx ws v' = pickIdx ws (v' % 2 ^ ws.length) := by
        intro v' h'
        have := hdiv v' h'
        rcases Nat.lt_or_ge v' (2 ^ ws.length) with hlt | hge
        · rw [Nat.mod_eq_of_lt hlt]
        · have e : v' = 2 ^ ws.length + (v' - 2 ^ ws.length) := by omega
          have hlt : v' - 2 ^ ws.length < 2 ^ ws.length := by rw [pow_succ] at h'; omega
          rw [e, pickIdx_add _ _ (le_refl _), Nat.add_mod_left, Nat.mod_eq_of_lt hlt]
      have hmod : ∀ v', v' % 2 ^ ws.length < 2 ^ ws.length := fun v' => Nat.mod_lt _ (by positivity)
      simp only [List.length_cons]
      rcases hi with hi | hi
      · have hi : i = c := hi
        subst hi
        refine ⟨v, by rw [pow_succ]; omega, by simp [pickIdx, Nat.div_eq_of_lt j1, j2], fun v' h' he => ?_⟩
        simp only [pickIdx] at he
        obtain ⟨e1, e2⟩ := List.cons.inj he
        have hb := hdiv v' h'
        have h0 : v' / 2 ^ ws.length = 0 := by
          rcases hb with hb | hb
          · exact hb
          · rw [hb] at e1; simp at e1
        have hlt : v' < 2 ^ ws.length := by
          have := hdec v' h'; rw [h0] at this; have := hmod v'; omega
        exact j3 v' hlt e2
      · have hi : i = c + 1 := hi
        subst hi
        have hq : (2 ^ ws.length + v) / 2 ^ ws.length = 1 := by
          rw [Nat.add_div_left _ (by positivity), Nat.div_eq_of_lt j1]
        refine ⟨2 ^ ws.length + v, by rw [pow_succ]; omega, ?_, fun v' h' he => ?_⟩
        · simp only [pickIdx]
          rw [pickIdx_add _ _ (le_refl _), j2, hq]; simp
        · simp only [pickIdx] at he
          obtain ⟨e1, e2⟩ := List.cons.inj he
          have hb := hdiv v' h'
          have h0 : v' / 2 ^ ws.length = 1 := by
            rcases hb with hb | hb
            · rw [hb] at e1; simp at e1
            · exact hb
          rw [hpick v' h'] at e2
          have := j3 _ (hmod v') e2
          have h2 := hdec v' h'
          rw [h0] at h2; omega

end MU.RGN
