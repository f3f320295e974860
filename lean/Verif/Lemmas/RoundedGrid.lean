import Verif.Model.RoundedGrid
import Verif.Lemmas.LinterpCube
import Verif.Lemmas.RegularGridHistory
import Verif.Lemmas.Rounding

set_option linter.unusedSectionVars false
set_option linter.unusedSimpArgs false

/-! Grid interpolation in double arithmetic. -/

namespace MU.NDInterp
open Spec

variable {rnd : ℝ → ℝ}

/-- What `axisR` finds: the cell, the exact and the rounded fraction, and the indices of the vertices. -/
inductive AxisResR (rnd : ℝ → ℝ) (g : List ℝ) (x : ℝ) : Int → ℝ → ℝ → Nat → Nat → Prop
  | below (a : ℝ) : g[0]? = some a → x < a → AxisResR rnd g x (-1) 1 1 0 0
  | above (b : ℝ) : g[g.length - 1]? = some b → b ≤ x → AxisResR rnd g x ((g.length : Int) - 1) 0 0 (g.length - 1) (g.length - 1)
  | inside (c : Nat) (a b : ℝ) : g[c]? = some a → g[c + 1]? = some b → a ≤ x → x < b →
      AxisResR rnd g x c ((x - a) / (b - a)) (rnd (rnd (x - a) / rnd (b - a))) c (c + 1)

theorem AxisResR.toExact {g : List ℝ} {x y y' : ℝ} {c : Int} {lo hi : Nat} (h : AxisResR rnd g x c y y' lo hi) : AxisRes g x c y lo hi := by
  cases h with
  | below a h0 hx => exact .below a h0 hx
  | above b h0 hx => exact .above b h0 hx
  | inside lo a b h0 h1 ha hb => exact .inside lo a b h0 h1 ha hb

theorem rnd_zero (hr : ToNearest rnd) : rnd 0 = 0 := toNearest_double hr double_zero

theorem double_one : Double 1 := ⟨1, 0, by norm_num, by norm_num⟩

theorem rnd_nonneg (hr : ToNearest rnd) {x : ℝ} (hx : 0 ≤ x) : 0 ≤ rnd x := toNearest_ge hr double_zero hx

theorem frac_range (hr : ToNearest rnd) {p q : ℝ} (hp : 0 ≤ p) (hpq : p ≤ q) (hq : 0 < q) :
    rnd q ≠ 0 ∧ 0 ≤ rnd (rnd p / rnd q) ∧ rnd (rnd p / rnd q) ≤ 1 := by
  have h1 := rnd_nonneg hr hp
  have h2 := toNearest_mono hr hpq
  have h3 : 0 < rnd q := lt_of_le_of_ne (h1.trans h2) (toNearest_ne_zero hr hq.ne').symm
  exact ⟨h3.ne', rnd_nonneg hr (div_nonneg h1 h3.le), toNearest_le hr double_one ((div_le_one h3).2 h2)⟩

theorem axis_resR (hr : ToNearest rnd) {g : List ℝ} (hne : g ≠ []) (hinc : g.Pairwise (· < ·)) (x : ℝ) :
    ∃ c y y' lo hi, axisR rnd g x = .ok (c, y') ∧ AxisResR rnd g x c y y' lo hi := by
  have hl : 0 < g.length := List.length_pos_of_ne_nil hne
  unfold axisR findCell
  rw [vIdx_lt hl, vIdx_lt (show g.length - 1 < g.length by omega)]
  by_cases h1 : x < g[0]
  · refine ⟨-1, 1, 1, 0, 0, by simp [h1], .below g[0] (List.getElem?_eq_getElem _) h1⟩
  · by_cases h2 : g[g.length - 1] ≤ x
    · refine ⟨(g.length : Int) - 1, 0, 0, g.length - 1, g.length - 1, ?_, .above _ (List.getElem?_eq_getElem _) h2⟩
      have : ¬ ((g.length : Int) - 1 = -1) := by omega
      simp [h1, h2, this]
    · obtain ⟨k, hk, hkl, hks⟩ := upperBound_spec (pairwise_lt_le hinc) x
      have hk0 : 0 < k := (hks 0 hl).mpr (not_lt.mp h1)
      have hkn : k < g.length := by
        by_contra hc
        have := (hks (g.length - 1) (by omega)).mp (by omega)
        exact h2 this
      have ha : g[k - 1] ≤ x := (hks (k - 1) (by omega)).mp (by omega)
      have hb : x < g[k] := by
        by_contra hc
        exact absurd ((hks k hkn).mpr (not_lt.mp hc)) (by omega)
      have hd : 0 < g[k] - g[k - 1] := sub_pos.mpr (lt_of_le_of_lt ha hb)
      obtain ⟨hn, hy0, hy1⟩ := frac_range hr (sub_nonneg.mpr ha) (show x - g[k - 1] ≤ g[k] - g[k - 1] by linarith) hd
      refine ⟨((k - 1 : Nat) : Int), (x - g[k - 1]) / (g[k] - g[k - 1]), rnd (rnd (x - g[k - 1]) / rnd (g[k] - g[k - 1])), k - 1, k - 1 + 1, ?_, ?_⟩
      · have hc : ((k : Int) - 1) = ((k - 1 : Nat) : Int) := by omega
        have e1 : ¬ (((k - 1 : Nat) : Int) = -1) := by omega
        have e2 : ¬ (((k - 1 : Nat) : Int) = (g.length : Int) - 1) := by omega
        have e3 : (((k - 1 : Nat) : Int) + 1).toNat = k := by omega
        simp only [Res.ok_bind, h1, h2, if_false, hk, Res.pure_eq, hc, e1, e2, e3, Int.toNat_natCast]
        rw [vIdx_lt (show k - 1 < g.length by omega), vIdx_lt hkn]
        simp only [Res.ok_bind]
        rw [fdiv_ok hn]
        simp only [Res.ok_bind, not_lt.mpr hy0, not_lt.mpr hy1, if_false]
      · refine .inside (k - 1) g[k - 1] g[k] (List.getElem?_eq_getElem _) ?_ ha hb
        rw [show k - 1 + 1 = k by omega]; exact List.getElem?_eq_getElem _

/-- What `axesR` finds; the last list has the rounded fractions, the one before the exact ones. -/
inductive AxesResR (rnd : ℝ → ℝ) : (grids : List (List ℝ)) → (x : List ℝ) → List Int → List ℝ → List (Nat × Nat × ℝ) → List (Nat × Nat × ℝ) → Prop
  | nil : AxesResR rnd [] [] [] [] [] []
  | cons {g gs x xs c cs y y' ys lo hi ws ws'} : AxisResR rnd g x c y y' lo hi → AxesResR rnd gs xs cs ys ws ws' →
      AxesResR rnd (g :: gs) (x :: xs) (c :: cs) (y' :: ys) ((lo, hi, y) :: ws) ((lo, hi, y') :: ws')

theorem axes_resR (hr : ToNearest rnd) {grids : List (List ℝ)} (hne : ∀ g ∈ grids, g ≠ []) (hinc : ∀ g ∈ grids, g.Pairwise (· < ·)) {x : List ℝ}
    (hx : x.length = grids.length) :
    ∃ cs ys ws ws', axesR rnd grids x = .ok (cs, ys) ∧ AxesResR rnd grids x cs ys ws ws' := by
  induction grids generalizing x with
  | nil =>
    cases x with
    | nil => exact ⟨[], [], [], [], rfl, .nil⟩
    | cons a t => simp at hx
  | cons g gs ih =>
    cases x with
    | nil => simp at hx
    | cons x xs =>
      obtain ⟨c, y, y', lo, hi, he, hr⟩ := axis_resR hr (hne g (by simp)) (hinc g (by simp)) x
      obtain ⟨cs, ys, ws, ws', he', hr'⟩ := ih (fun g' h' => hne g' (by simp [h'])) (fun g' h' => hinc g' (by simp [h']))
        (x := xs) (by simpa using hx)
      exact ⟨c :: cs, y' :: ys, (lo, hi, y) :: ws, (lo, hi, y') :: ws', by simp [axesR, he, he'], .cons hr hr'⟩

theorem AxesResR.toExact {grids : List (List ℝ)} {x : List ℝ} {cs : List Int} {ys : List ℝ} {ws ws' : List (Nat × Nat × ℝ)}
    (h : AxesResR rnd grids x cs ys ws ws') : AxesRes grids x cs (ws.map (·.2.2)) ws := by
  induction h with
  | nil => exact .nil
  | cons h1 _ ih => exact .cons h1.toExact ih

theorem AxesResR.same {grids : List (List ℝ)} {x : List ℝ} {cs : List Int} {ys : List ℝ} {ws ws' : List (Nat × Nat × ℝ)}
    (h : AxesResR rnd grids x cs ys ws ws') : ws'.length = grids.length ∧ ys = ws'.map (·.2.2) ∧ ∀ v, pickIdx ws' v = pickIdx ws v := by
  have hl : ws'.length = ws.length := by
    induction h with
    | nil => rfl
    | cons _ _ ih => simp [ih]
  refine ⟨hl.trans h.toExact.length.1, ?_, ?_⟩
  · clear hl
    induction h with
    | nil => rfl
    | cons _ _ ih => simp [ih]
  · clear hl
    induction h with
    | nil => intro v; rfl
    | @cons _ _ _ _ _ _ _ _ _ _ _ ws ws' _ h2 ih =>
      intro v
      have : ws'.length = ws.length := by
        clear ih
        induction h2 with
        | nil => rfl
        | cons _ _ ih => simp [ih]
      simp [pickIdx, ih, this]

/-- Iterated linear interpolation with rounded operations. -/
noncomputable def cubeR (rnd : ℝ → ℝ) : List (Nat × Nat × ℝ) → (List Nat → ℝ) → ℝ
  | [], F => F []
  | (lo, hi, y) :: ws, F =>
    rnd (cubeR rnd ws (fun is => F (lo :: is)) + rnd (y * rnd (cubeR rnd ws (fun is => F (hi :: is)) - cubeR rnd ws (fun is => F (lo :: is)))))

theorem unitcubeR_verts (ws : List (Nat × Nat × ℝ)) (hne : ws ≠ []) (F : List Nat → ℝ) :
    unitcubeR rnd (verts ws F) (ws.map (·.2.2)) = .ok (cubeR rnd ws F) := by
  induction ws generalizing F with
  | nil => exact absurd rfl hne
  | cons w ws ih =>
    obtain ⟨lo, hi, y⟩ := w
    cases ws with
    | nil => simp [verts, unitcubeR, cubeR, vIdx]
    | cons w' ws' =>
      have hlen := verts_length (w' :: ws') (fun is => F (lo :: is))
      have hlen' := verts_length (w' :: ws') (fun is => F (hi :: is))
      rw [verts]
      simp only [List.map_cons, unitcubeR]
      rw [show (verts (w' :: ws') (fun is => F (lo :: is)) ++ verts (w' :: ws') (fun is => F (hi :: is))).length / 2
        = (verts (w' :: ws') (fun is => F (lo :: is))).length by rw [List.length_append]; omega]
      rw [List.take_left', List.drop_left']
      · have h1 := ih (by simp) (fun is => F (lo :: is))
        have h2 := ih (by simp) (fun is => F (hi :: is))
        simp only [List.map_cons] at h1 h2
        rw [h1, h2]
        rfl
      · rfl
      · rfl

theorem interp_cubeR (hr : ToNearest rnd) {grids : List (List ℝ)} {values : List ℝ} {F : List Nat → ℝ} (hg : Axes grids)
    (hF : Holds (grids.map List.length) values F) {x : List ℝ} (hx : x.length = grids.length) :
    ∃ cs ys ws ws', AxesResR rnd grids x cs ys ws ws' ∧ interpMultilinearR rnd ⟨grids, values⟩ x = .ok (cubeR rnd ws' F) := by
  obtain ⟨cs, ys, ws, ws', he, hr⟩ := axes_resR hr hg.nonempty hg.increasing hx
  refine ⟨cs, ys, ws, ws', hr, ?_⟩
  unfold interpMultilinearR
  simp only [he, Res.ok_bind]
  have hloop := forRange_ok (lo := 0) (hi := 1 <<< grids.length) (Nat.zero_le _)
    (f := fun v f => do
      let y ← getFValV ⟨grids, values⟩ cs v
      return f ++ [y]) (fun n => (List.range n).map (fun v => F (pickIdx ws' v))) (by
      intro i _ _
      unfold getFValV getFVal
      simp only
      rw [fIndex_bits hr.toExact, mdRead_eq hF (pickIdx_inside hr.toExact i)]
      simp [List.range_succ, hr.same.2.2])
  simp only [List.range_zero, List.map_nil] at hloop
  rw [hloop, Res.ok_bind, Nat.shiftLeft_eq, Nat.one_mul, ← hr.same.1, verts_eq, hr.same.2.1]
  apply unitcubeR_verts
  intro hw
  have := hr.same.1
  rw [hw] at this
  exact hg.dims (List.length_eq_zero_iff.mp this.symm)

/-- One step of the recursion. -/
noncomputable def mixR (rnd : ℝ → ℝ) (y l u : ℝ) : ℝ := rnd (l + rnd (y * rnd (u - l)))

theorem mixR_same (hr : ToNearest rnd) (y : ℝ) {l : ℝ} (hl : Double l) : mixR rnd y l l = l := by
  unfold mixR
  rw [sub_self, rnd_zero hr, mul_zero, rnd_zero hr, add_zero, toNearest_double hr hl]

theorem mixR_zero (hr : ToNearest rnd) {l : ℝ} (u : ℝ) (hl : Double l) : mixR rnd 0 l u = l := by
  unfold mixR
  rw [zero_mul, rnd_zero hr, add_zero, toNearest_double hr hl]

theorem cubeR_double (hr : ToNearest rnd) {grids : List (List ℝ)} {x : List ℝ} {cs : List Int} {ys : List ℝ}
    {ws ws' : List (Nat × Nat × ℝ)} (h : AxesResR rnd grids x cs ys ws ws') {F : List Nat → ℝ}
    (hF : ∀ idx, Inside idx (grids.map List.length) → Double (F idx)) : Double (cubeR rnd ws' F) := by
  cases h with
  | nil => exact hF [] .nil
  | cons _ _ => exact (hr _).1

theorem AxisResR.node (hr : ToNearest rnd) {g : List ℝ} (hinc : g.Pairwise (· < ·)) {x y y' : ℝ} {c : Int} {lo hi : Nat} (h : AxisResR rnd g x c y y' lo hi)
    {i : Nat} (hi' : g[i]? = some x) {p : Nat → ℝ} (hp : Double (p lo)) : mixR rnd y' (p lo) (p hi) = p i := by
  have hil := (List.getElem?_eq_some_iff.mp hi').1
  cases h with
  | below a h0 hx => exact absurd (getElem?_le hinc h0 hi' (Nat.zero_le _)) (not_le.mpr hx)
  | above b h0 hx =>
    have : i = g.length - 1 := by
      by_contra hc
      exact absurd (getElem?_lt hinc hi' h0 (by omega)) (not_lt.mpr hx)
    subst this; exact mixR_same hr _ hp
  | inside lo a b h0 h1 ha hb =>
    have h2 : i ≤ lo := by
      by_contra hc
      exact absurd (getElem?_le hinc h1 hi' (by omega)) (not_le.mpr hb)
    have h3 : i = lo := by
      by_contra hc
      exact absurd (getElem?_lt hinc hi' h0 (by omega)) (not_lt.mpr ha)
    subst h3
    rw [h0] at hi'
    cases hi'
    rw [sub_self, rnd_zero hr, zero_div, rnd_zero hr]
    exact mixR_zero hr _ hp

theorem cubeR_node (hr : ToNearest rnd) {grids : List (List ℝ)} (hinc : ∀ g ∈ grids, g.Pairwise (· < ·)) {x : List ℝ} {cs : List Int} {ys : List ℝ}
    {ws ws' : List (Nat × Nat × ℝ)} (h : AxesResR rnd grids x cs ys ws ws') {idx : List Nat} (hn : IsNode grids idx x) {F : List Nat → ℝ}
    (hF : ∀ idx, Inside idx (grids.map List.length) → Double (F idx)) : cubeR rnd ws' F = F idx := by
  induction h generalizing idx F with
  | nil => cases hn; rfl
  | @cons g gs x xs c cs y y' ys lo hi ws ws' h1 h2 ih =>
    cases hn with
    | @cons _ _ i is _ _ hi' hn =>
      have ih := fun F => ih (F := F) (fun g' h' => hinc g' (by simp [h'])) hn
      have hlo : ∀ idx, Inside idx (gs.map List.length) → Double (F (lo :: idx)) := fun idx hi => hF _ (.cons h1.toExact.lo_lt hi)
      have hhi : ∀ idx, Inside idx (gs.map List.length) → Double (F (hi :: idx)) := fun idx hi => hF _ (.cons h1.toExact.hi_lt hi)
      have el := ih (fun is => F (lo :: is)) hlo
      have eu := ih (fun is => F (hi :: is)) hhi
      have hd := cubeR_double hr h2 hlo
      rw [el] at hd
      simp only [cubeR, el, eu]
      exact h1.node hr (hinc g (by simp)) hi' (p := fun j => F (j :: is)) hd

theorem cubeR_const (hr : ToNearest rnd) {k : ℝ} (hk : Double k) {grids : List (List ℝ)} {x : List ℝ} {cs : List Int} {ys : List ℝ}
    {ws ws' : List (Nat × Nat × ℝ)} (h : AxesResR rnd grids x cs ys ws ws') {F : List Nat → ℝ}
    (hF : ∀ idx, Inside idx (grids.map List.length) → F idx = k) : cubeR rnd ws' F = k := by
  induction h generalizing F with
  | nil => exact hF [] .nil
  | @cons g gs x xs c cs y y' ys lo hi ws ws' h1 h2 ih =>
    have el := ih (F := fun is => F (lo :: is)) (fun idx hi => hF _ (.cons h1.toExact.lo_lt hi))
    have eu := ih (F := fun is => F (hi :: is)) (fun idx hi => hF _ (.cons h1.toExact.hi_lt hi))
    simp only [cubeR, el, eu]
    exact mixR_same hr _ hk

theorem AxisResR.det {g : List ℝ} (hinc : g.Pairwise (· < ·)) {x y y' z z' : ℝ} {c d : Int} {lo hi lo' hi' : Nat}
    (h : AxisResR rnd g x c y y' lo hi) (h' : AxisResR rnd g x d z z' lo' hi') : lo = lo' ∧ hi = hi' ∧ y' = z' := by
  cases h with
  | below a h0 hx =>
    cases h' with
    | below a' h0' hx' => exact ⟨rfl, rfl, rfl⟩
    | above b h1 hx' => exact absurd (getElem?_le hinc h0 h1 (Nat.zero_le _)) (not_le.mpr (lt_of_le_of_lt hx' hx))
    | inside lo' a' b' h1 h2 ha hb => exact absurd (getElem?_le hinc h0 h1 (Nat.zero_le _)) (not_le.mpr (lt_of_le_of_lt ha hx))
  | above b h0 hx =>
    cases h' with
    | below a h1 hx' => exact absurd (getElem?_le hinc h1 h0 (Nat.zero_le _)) (not_le.mpr (lt_of_le_of_lt hx hx'))
    | above b' h0' hx' => exact ⟨rfl, rfl, rfl⟩
    | inside lo' a' b' h1 h2 ha hb =>
      have hl := (List.getElem?_eq_some_iff.mp h2).1
      exact absurd (getElem?_le hinc h2 h0 (by omega)) (not_le.mpr (lt_of_le_of_lt hx hb))
  | inside lo a b h1 h2 ha hb =>
    cases h' with
    | below a' h0 hx => exact absurd (getElem?_le hinc h0 h1 (Nat.zero_le _)) (not_le.mpr (lt_of_le_of_lt ha hx))
    | above b' h0 hx =>
      have hl := (List.getElem?_eq_some_iff.mp h2).1
      exact absurd (getElem?_le hinc h2 h0 (by omega)) (not_le.mpr (lt_of_le_of_lt hx hb))
    | inside lo' a' b' h1' h2' ha' hb' =>
      have e : lo = lo' := by
        rcases Nat.lt_trichotomy lo lo' with h | h | h
        · exact absurd (getElem?_le hinc h2 h1' (by omega)) (not_le.mpr (lt_of_le_of_lt ha' hb))
        · exact h
        · exact absurd (getElem?_le hinc h2' h1 (by omega)) (not_le.mpr (lt_of_le_of_lt ha hb'))
      subst e
      rw [h1] at h1'; rw [h2] at h2'
      cases h1'; cases h2'
      exact ⟨rfl, rfl, rfl⟩

theorem AxisResR.clamp (hr : ToNearest rnd) {g : List ℝ} (hinc : g.Pairwise (· < ·)) {x x' y y' z z' : ℝ} {c c' : Int} {lo hi lo' hi' : Nat}
    (h : AxisResR rnd g x c y y' lo hi) (h' : AxisResR rnd g x' c' z z' lo' hi') {a b : ℝ} (ha : g.head? = some a) (hb : g.getLast? = some b)
    (hx' : x' = max a (min x b)) {p : Nat → ℝ} (hp : ∀ i, i < g.length → Double (p i)) :
    mixR rnd y' (p lo) (p hi) = mixR rnd z' (p lo') (p hi') := by
  have ha0 : g[0]? = some a := by rw [← List.head?_eq_getElem?]; exact ha
  have hb0 : g[g.length - 1]? = some b := by rw [← List.getLast?_eq_getElem?]; exact hb
  have hab : a ≤ b := getElem?_le hinc ha0 hb0 (Nat.zero_le _)
  rcases lt_or_ge x a with h1 | h1
  · have : x' = a := by rw [hx', min_eq_left (le_trans h1.le hab), max_eq_left h1.le]
    subst this
    rw [h'.node hr hinc ha0 (hp _ h'.toExact.lo_lt)]
    cases h with
    | below a0 h0 hx => exact mixR_same hr _ (hp _ (List.getElem?_eq_some_iff.mp h0).1)
    | above b0 h0 hx =>
      rw [hb0] at h0; cases h0
      exact absurd h1 (not_lt.mpr (le_trans hab hx))
    | inside c a0 b0 h0 _ h2 _ =>
      exact absurd (getElem?_le hinc ha0 h0 (Nat.zero_le _)) (not_le.mpr (lt_of_le_of_lt h2 h1))
  · rcases lt_or_ge b x with h2 | h2
    · have : x' = b := by rw [hx', min_eq_right h2.le, max_eq_right hab]
      subst this
      rw [h'.node hr hinc hb0 (hp _ h'.toExact.lo_lt)]
      cases h with
      | below a0 h0 hx =>
        rw [ha0] at h0; cases h0
        exact absurd h1 (not_le.mpr hx)
      | above b0 h0 hx => exact mixR_same hr _ (hp _ (List.getElem?_eq_some_iff.mp h0).1)
      | inside c a0 b0 h0 h3 h4 h5 =>
        have hl := (List.getElem?_eq_some_iff.mp h3).1
        exact absurd (getElem?_le hinc h3 hb0 (by omega)) (not_le.mpr (lt_trans h2 h5))
    · have : x' = x := by rw [hx', min_eq_left h2, max_eq_right h1]
      subst this
      obtain ⟨rfl, rfl, rfl⟩ := h.det hinc h'
      rfl

theorem cubeR_clamp (hr : ToNearest rnd) {grids : List (List ℝ)} (hinc : ∀ g ∈ grids, g.Pairwise (· < ·)) {x x' : List ℝ} {cs cs' : List Int} {ys ys' : List ℝ}
    {ws wt ws' wt' : List (Nat × Nat × ℝ)} (h : AxesResR rnd grids x cs ys ws wt) (h' : AxesResR rnd grids x' cs' ys' ws' wt') (hc : Clamped grids x x')
    {F : List Nat → ℝ} (hF : ∀ idx, Inside idx (grids.map List.length) → Double (F idx)) : cubeR rnd wt F = cubeR rnd wt' F := by
  induction h generalizing x' cs' ys' ws' wt' F with
  | nil => cases h'; rfl
  | @cons g gs x xs c cs y y' ys lo hi ws wt h1 h2 ih =>
    cases h' with
    | @cons _ _ x1 xs1 c1 cs1 z z' zs lo1 hi1 ws1 wt1 h1' h2' =>
      cases hc with
      | cons ha hb hc =>
        have ih := fun F hF => ih (F := F) (fun g' h' => hinc g' (by simp [h'])) h2' hc hF
        have hd : ∀ j, j < g.length → ∀ idx, Inside idx (gs.map List.length) → Double (F (j :: idx)) := fun j hj idx hi => hF _ (.cons hj hi)
        simp only [cubeR, ih _ (hd _ h1.toExact.lo_lt), ih _ (hd _ h1.toExact.hi_lt)]
        exact h1.clamp hr (hinc g (by simp)) h1' ha hb rfl (p := fun j => cubeR rnd wt1 (fun is => F (j :: is)))
          (fun j hj => cubeR_double hr h2' (hd j hj))

/-- The error of one step. -/
theorem mixR_err (hr : ToNearest rnd) {l u l' u' y y' M E : ℝ} (hy0 : 0 ≤ y) (hy1 : y ≤ 1) (hy : Near 4 |y| y y') (hl : |l| ≤ M) (hu : |u| ≤ M)
    (hl' : |l' - l| ≤ E - M) (hu' : |u' - u| ≤ E - M) : |mixR rnd y' l' u' - (l + y * (u - l))| ≤ (1 + 16 * uround) * E - M := by
  have hlE : |l'| ≤ E := by
    have := abs_add_le (l' - l) l
    rw [sub_add_cancel] at this
    linarith
  have huE : |u'| ≤ E := by
    have := abs_add_le (u' - u) u
    rw [sub_add_cancel] at this
    linarith
  have hE : 0 ≤ E := (abs_nonneg _).trans hlE
  have h6 : gam 6 ≤ 7 * uround := by
    have := gam_le (k := 6) (by norm_num)
    push_cast at this
    linarith
  have hg6 := gam_nonneg 6
  have hu0 := uround_nonneg
  have hu1 : uround ≤ 1 / 100 := by unfold uround; norm_num
  -- the product
  have ht : Near 6 (|y| * |u' - l'|) (y * (u' - l')) (rnd (y' * rnd (u' - l'))) := by
    have := (hy.mul ((Near.exact (u' - l')).round hr)).round hr
    exact this
  have ht2 : |rnd (y' * rnd (u' - l')) - y * (u' - l')| ≤ gam 6 * (2 * E) := by
    refine ht.err.trans (mul_le_mul_of_nonneg_left ?_ hg6)
    have h1 : |u' - l'| ≤ 2 * E := by
      have := abs_sub u' l'
      linarith
    calc |y| * |u' - l'| ≤ 1 * (2 * E) := mul_le_mul (by rw [abs_of_nonneg hy0]; exact hy1) h1 (abs_nonneg _) zero_le_one
      _ = 2 * E := one_mul _
  set t := rnd (y' * rnd (u' - l')) with htdef
  -- convex combinations
  have hc1 : |l' + y * (u' - l') - (l + y * (u - l))| ≤ E - M := by
    rw [show l' + y * (u' - l') - (l + y * (u - l)) = (1 - y) * (l' - l) + y * (u' - u) by ring]
    refine (abs_add_le _ _).trans ?_
    rw [abs_mul, abs_mul, abs_of_nonneg hy0, abs_of_nonneg (sub_nonneg.2 hy1)]
    have h1 := mul_le_mul_of_nonneg_left hl' (sub_nonneg.2 hy1)
    have h2 := mul_le_mul_of_nonneg_left hu' hy0
    linarith
  have hc2 : |l' + y * (u' - l')| ≤ E := by
    rw [show l' + y * (u' - l') = (1 - y) * l' + y * u' by ring]
    refine (abs_add_le _ _).trans ?_
    rw [abs_mul, abs_mul, abs_of_nonneg hy0, abs_of_nonneg (sub_nonneg.2 hy1)]
    have h1 := mul_le_mul_of_nonneg_left hlE (sub_nonneg.2 hy1)
    have h2 := mul_le_mul_of_nonneg_left huE hy0
    linarith
  have h3 : |l' + t - (l + y * (u - l))| ≤ E - M + gam 6 * (2 * E) := by
    rw [show l' + t - (l + y * (u - l)) = (l' + y * (u' - l') - (l + y * (u - l))) + (t - y * (u' - l')) by ring]
    exact (abs_add_le _ _).trans (add_le_add hc1 ht2)
  have h4 : |l' + t| ≤ E + gam 6 * (2 * E) := by
    rw [show l' + t = (l' + y * (u' - l')) + (t - y * (u' - l')) by ring]
    exact (abs_add_le _ _).trans (add_le_add hc2 ht2)
  have h5 := toNearest_err hr (l' + t)
  rw [show |l' + t| / 2 ^ 53 = uround * |l' + t| by unfold uround; ring, abs_sub_comm] at h5
  have h7 : uround * |l' + t| ≤ uround * (E + gam 6 * (2 * E)) := mul_le_mul_of_nonneg_left h4 hu0
  have h8 : gam 6 * (2 * E) ≤ 7 * uround * (2 * E) := mul_le_mul_of_nonneg_right h6 (by linarith)
  have h9 : uround * (gam 6 * (2 * E)) ≤ 1 / 100 * (7 * uround * (2 * E)) := mul_le_mul hu1 h8 (by positivity) (by norm_num)
  have huE' : 0 ≤ uround * E := mul_nonneg hu0 hE
  have h10 : |mixR rnd y' l' u' - (l + y * (u - l))| ≤ |rnd (l' + t) - (l' + t)| + |l' + t - (l + y * (u - l))| := by
    unfold mixR
    rw [← htdef, show rnd (l' + t) - (l + y * (u - l)) = (rnd (l' + t) - (l' + t)) + (l' + t - (l + y * (u - l))) by ring]
    exact abs_add_le _ _
  nlinarith

theorem AxisResR.near (hr : ToNearest rnd) {g : List ℝ} {x y y' : ℝ} {c : Int} {lo hi : Nat} (h : AxisResR rnd g x c y y' lo hi) : Near 4 |y| y y' := by
  cases h with
  | below a h0 hx => exact (Near.exact 1).upto (by omega)
  | above b h0 hx => exact (Near.exact 0).upto (by omega)
  | inside lo a b h0 h1 ha hb =>
    have := (((Near.exact (x - a)).round hr).mul (Near.inv_round hr (d := b - a))).round hr
    rw [← abs_mul] at this
    simpa only [div_eq_mul_inv] using this

theorem cubeR_err (hr : ToNearest rnd) {grids : List (List ℝ)} {x : List ℝ} {cs : List Int} {ys : List ℝ}
    {ws ws' : List (Nat × Nat × ℝ)} (h : AxesResR rnd grids x cs ys ws ws') {F : List Nat → ℝ} {M : ℝ}
    (hF : ∀ idx, Inside idx (grids.map List.length) → |F idx| ≤ M) :
    |cube ws F| ≤ M ∧ |cubeR rnd ws' F - cube ws F| ≤ (1 + 16 * uround) ^ grids.length * M - M := by
  induction h generalizing F with
  | nil => exact ⟨hF [] .nil, by simp [cube, cubeR]⟩
  | @cons g gs x xs c cs y y' ys lo hi ws ws' h1 h2 ih =>
    obtain ⟨bl, el⟩ := ih (F := fun is => F (lo :: is)) (fun idx hi => hF _ (.cons h1.toExact.lo_lt hi))
    obtain ⟨bu, eu⟩ := ih (F := fun is => F (hi :: is)) (fun idx hi => hF _ (.cons h1.toExact.hi_lt hi))
    obtain ⟨hy0, hy1⟩ := h1.toExact.frac
    refine ⟨?_, ?_⟩
    · simp only [cube]
      rw [show ∀ l u : ℝ, l + y * (u - l) = (1 - y) * l + y * u by intros; ring]
      refine (abs_add_le _ _).trans ?_
      rw [abs_mul, abs_mul, abs_of_nonneg hy0, abs_of_nonneg (sub_nonneg.2 hy1)]
      have h1 := mul_le_mul_of_nonneg_left bl (sub_nonneg.2 hy1)
      have h2 := mul_le_mul_of_nonneg_left bu hy0
      linarith
    · rw [List.length_cons, pow_succ', mul_assoc]
      exact mixR_err hr hy0 hy1 (h1.near hr) bl bu el eu

end MU.NDInterp

namespace MU.RGI
open Spec

variable {rnd : ℝ → ℝ}

theorem interpolateR_loaded {dim : Nat} {grids : List (List ℝ)} {F : List Nat → ℝ} {s : RGI ℝ} (h : Loaded dim grids F s)
    (x : List ℝ) : interpolateR rnd s x false = NDInterp.interpMultilinearR rnd ⟨grids, s.data.elems⟩ x := by
  obtain ⟨_, _, _, _, _, hi, _⟩ := Loaded.fields h
  simp [interpolateR, hi]

theorem interpolateR_checked {dim : Nat} {grids : List (List ℝ)} {F : List Nat → ℝ} {s : RGI ℝ} (h : Loaded dim grids F s)
    {x : List ℝ} (hx : x.length = dim) :
    (InBox grids x → interpolateR rnd s x true = interpolateR rnd s x false) ∧
    (¬ InBox grids x → interpolateR rnd s x true = .throws .runtimeError) := by
  obtain ⟨_, hd, _, _, _, hi, l, hl, hL⟩ := Loaded.fields h
  obtain ⟨h1, h2⟩ := boundCheck_eq hL (x := x) (by omega)
  refine ⟨fun hb => ?_, fun hb => ?_⟩
  · simp [interpolateR, hl, h1 hb]
  · simp [interpolateR, hl, h2 hb]

end MU.RGI
