import Verif.Model.IeeeGrid
import Verif.Lemmas.Ieee
import Verif.Lemmas.RoundedGrid
import Verif.Props.IeeeUnit
import Verif.Props.RegularGrid
import Verif.Props.RoundedGrid

set_option linter.unusedSectionVars false
set_option linter.unusedSimpArgs false

/-!
# C188 `RegularGridInterpolator<double>` in binary64, with overflow and underflow
-/

namespace MU.NDInterp
open Spec Dbl

variable {fl : ℝ → Option ℝ}

theorem ofReal_nonneg_num (h : Ieee fl) {x y : ℝ} (hx : 0 ≤ x) (e : ofReal fl x = num y) : 0 ≤ y := by
  have := ofReal_mono h hx
  rw [e, ofReal_some (ieee_double h double64_zero)] at this
  simpa [Dbl.le] using this

/-- The fraction that is computed in a cell. -/
theorem fracI (h : Ieee fl) {a b x : ℝ} (ha : Double64 a) (hb : Double64 b) (hx : Double64 x) (hax : a ≤ x) (hxb : x < b) (ho : b - a < overflow64) :
    ∃ y, fquot fl (fsub fl (num x) (num a)) (fsub fl (num b) (num a)) = .ok (num y) ∧ 0 ≤ y ∧ y ≤ 1 ∧ |y - (x - a) / (b - a)| ≤ 6 * uround ∧ (x = a → y = 0) := by
  have hu0 := uround_pos
  have hu : uround ≤ 1 / 100 := by unfold uround; norm_num
  have hty0 := tiny_pos
  have hty : tiny ≤ uround := by
    unfold tiny uround
    have : (2 : ℝ) ^ (-1075 : ℤ) ≤ (2 : ℝ) ^ (-53 : ℤ) := zpow_le_zpow_right₀ (by norm_num) (by norm_num)
    exact this.trans (by norm_num)
  have hd : 0 < b - a := by linarith
  obtain ⟨ε1, e1, -, n1⟩ := fsub_ok h hx ha (by rw [abs_of_nonneg (by linarith)]; linarith)
  obtain ⟨ε2, e2, -, n2⟩ := fsub_ok h hb ha (by rw [abs_of_nonneg (by linarith)]; linarith)
  have e1' := abs_le.1 e1
  have e2' := abs_le.1 e2
  have en : fsub fl (num x) (num a) = ofReal fl (x - a) := by rw [sub_eq_add_neg]; rfl
  have ed : fsub fl (num b) (num a) = ofReal fl (b - a) := by rw [sub_eq_add_neg]; rfl
  have hle : (x - a) * (1 + ε1) ≤ (b - a) * (1 + ε2) := by
    have := ofReal_mono h (show x - a ≤ b - a by linarith)
    rw [← en, ← ed, n1, n2] at this
    simpa [Dbl.le] using this
  have hn0 : 0 ≤ (x - a) * (1 + ε1) := mul_nonneg (by linarith) (by linarith)
  have hd0 : 0 < (b - a) * (1 + ε2) := mul_pos hd (by linarith)
  have hq1 : (x - a) * (1 + ε1) * ((b - a) * (1 + ε2))⁻¹ ≤ 1 := by rw [← div_eq_mul_inv]; exact (div_le_one hd0).2 hle
  have hq0 : 0 ≤ (x - a) * (1 + ε1) * ((b - a) * (1 + ε2))⁻¹ := mul_nonneg hn0 (inv_nonneg.2 hd0.le)
  have d1 : Double64 (1 : ℝ) := by simpa using double64_pow (e := 0) (by norm_num) (by norm_num)
  have h1O : (1 : ℝ) < overflow64 := by simpa using double64_le d1
  obtain ⟨ε3, η, e3, e4, -, n3⟩ := fquot_ok h hd0.ne' (x := (x - a) * (1 + ε1)) (by rw [abs_of_nonneg hq0]; linarith)
  have n3' : ofReal fl ((x - a) * (1 + ε1) * ((b - a) * (1 + ε2))⁻¹) = num ((x - a) * (1 + ε1) * ((b - a) * (1 + ε2))⁻¹ * (1 + ε3) + η) := by
    simp only [fquot, if_neg hd0.ne', Dbl.mul, rounded] at n3
    exact Res.ok.inj n3
  rw [n1, n2, n3]
  refine ⟨_, rfl, ofReal_nonneg_num h hq0 n3', ?_, ?_, ?_⟩
  · have := ofReal_mono h hq1
    rw [n3', ofReal_some (ieee_double h d1)] at this
    simpa [Dbl.le] using this
  · have e3' := abs_le.1 e3
    have e4' := abs_le.1 e4
    set q := (x - a) * (1 + ε1) * ((b - a) * (1 + ε2))⁻¹ with hq
    have hy0 : 0 ≤ (x - a) / (b - a) := div_nonneg (by linarith) hd.le
    have hy1 : (x - a) / (b - a) ≤ 1 := (div_le_one hd).2 (by linarith)
    have hqy : q * (1 + ε2) = (x - a) / (b - a) * (1 + ε1) := by
      have : 1 + ε2 ≠ 0 := by linarith
      rw [hq]
      field_simp
    generalize (x - a) / (b - a) = y at *
    rw [abs_le]
    constructor <;> nlinarith
  · intro hxa
    have : (x - a) * (1 + ε1) * ((b - a) * (1 + ε2))⁻¹ = 0 := by rw [hxa]; simp
    rw [this, ofReal_some (ieee_double h double64_zero)] at n3'
    injection n3' with n3'
    rw [this]
    exact n3'.symm

/-- What `axisI` finds: the cell, the exact and the computed fraction, and the indices of the vertices. -/
inductive AxisResI (fl : ℝ → Option ℝ) (g : List ℝ) (x : ℝ) : Int → ℝ → ℝ → Nat → Nat → Prop
  | below (a : ℝ) : g[0]? = some a → x < a → AxisResI fl g x (-1) 1 1 0 0
  | above (b : ℝ) : g[g.length - 1]? = some b → b ≤ x → AxisResI fl g x ((g.length : Int) - 1) 0 0 (g.length - 1) (g.length - 1)
  | inside (c : Nat) (a b y' : ℝ) : g[c]? = some a → g[c + 1]? = some b → a ≤ x → x < b → 0 ≤ y' → y' ≤ 1 → |y' - (x - a) / (b - a)| ≤ 6 * uround → (x = a → y' = 0) →
      fquot fl (fsub fl (num x) (num a)) (fsub fl (num b) (num a)) = .ok (num y') → AxisResI fl g x c ((x - a) / (b - a)) y' c (c + 1)

theorem AxisResI.toExact {g : List ℝ} {x y y' : ℝ} {c : Int} {lo hi : Nat} (h : AxisResI fl g x c y y' lo hi) : AxisRes g x c y lo hi := by
  cases h with
  | below a h0 hx => exact .below a h0 hx
  | above b h0 hx => exact .above b h0 hx
  | inside lo a b _ h0 h1 ha hb => exact .inside lo a b h0 h1 ha hb

theorem AxisResI.frac {g : List ℝ} {x y y' : ℝ} {c : Int} {lo hi : Nat} (h : AxisResI fl g x c y y' lo hi) : 0 ≤ y' ∧ y' ≤ 1 ∧ |y' - y| ≤ 6 * uround := by
  have := uround_nonneg
  cases h with
  | below a h0 hx => simp [this]
  | above b h0 hx => simp [this]
  | inside lo a b _ h0 h1 ha hb h2 h3 h4 h5 h6 => exact ⟨h2, h3, h4⟩

/-- An axis of finite numbers whose range does not overflow. -/
structure AxisRange (g : List ℝ) : Prop where
  finite : ∀ a ∈ g, Double64 a
  range : ∀ a ∈ g, ∀ b ∈ g, b - a < overflow64

theorem axis_resI (h : Ieee fl) {g : List ℝ} (hne : g ≠ []) (hinc : g.Pairwise (· < ·)) (hg : AxisRange g) {x : ℝ} (hx : Double64 x) :
    ∃ c y y' lo hi, axisI fl g x = .ok (c, num y') ∧ AxisResI fl g x c y y' lo hi := by
  have hl : 0 < g.length := List.length_pos_of_ne_nil hne
  unfold axisI findCell
  rw [vIdx_lt hl, vIdx_lt (show g.length - 1 < g.length by omega)]
  by_cases h1 : x < g[0]
  · refine ⟨-1, 1, 1, 0, 0, by simp [h1], .below g[0] (List.getElem?_eq_getElem _) h1⟩
  · by_cases h2 : g[g.length - 1] ≤ x
    · refine ⟨(g.length : Int) - 1, 0, 0, g.length - 1, g.length - 1, ?_, .above _ (List.getElem?_eq_getElem _) h2⟩
      have : ¬ ((g.length : Int) - 1 = -1) := by omega
      simp [h1, h2, this]
    · obtain ⟨k, hk, hkl, hks⟩ := upperBound_spec (pairwise_lt_le hinc) x
      have hk0 : 0 < k := (hks 0 hl).mpr (not_lt.mp h1)
      have hkn : k < g.length := by
        by_contra hc
        have := (hks (g.length - 1) (by omega)).mp (by omega)
        exact h2 this
      have ha : g[k - 1] ≤ x := (hks (k - 1) (by omega)).mp (by omega)
      have hb : x < g[k] := by
        by_contra hc
        exact absurd ((hks k hkn).mpr (not_lt.mp hc)) (by omega)
      obtain ⟨y, hy, hy0, hy1, hy2, hy3⟩ := fracI h (hg.finite _ (List.getElem_mem (by omega : k - 1 < g.length))) (hg.finite _ (List.getElem_mem hkn)) hx ha hb
        (hg.range _ (List.getElem_mem (by omega : k - 1 < g.length)) _ (List.getElem_mem hkn))
      refine ⟨((k - 1 : Nat) : Int), (x - g[k - 1]) / (g[k] - g[k - 1]), y, k - 1, k - 1 + 1, ?_, ?_⟩
      · have hc : ((k : Int) - 1) = ((k - 1 : Nat) : Int) := by omega
        have e1 : ¬ (((k - 1 : Nat) : Int) = -1) := by omega
        have e2 : ¬ (((k - 1 : Nat) : Int) = (g.length : Int) - 1) := by omega
        have e3 : (((k - 1 : Nat) : Int) + 1).toNat = k := by omega
        simp only [Res.ok_bind, h1, h2, if_false, hk, Res.pure_eq, hc, e1, e2, e3, Int.toNat_natCast]
        rw [vIdx_lt (show k - 1 < g.length by omega), vIdx_lt hkn]
        simp only [Res.ok_bind]
        rw [hy]
        simp [Dbl.lt, not_lt.mpr hy0, not_lt.mpr hy1]
      · refine .inside (k - 1) g[k - 1] g[k] y (List.getElem?_eq_getElem _) ?_ ha hb hy0 hy1 hy2 hy3 hy
        rw [show k - 1 + 1 = k by omega]; exact List.getElem?_eq_getElem _

/-- What `axesI` finds; the last list has the computed fractions, the one before the exact ones. -/
inductive AxesResI (fl : ℝ → Option ℝ) : (grids : List (List ℝ)) → (x : List ℝ) → List Int → List ℝ → List (Nat × Nat × ℝ) → List (Nat × Nat × ℝ) → Prop
  | nil : AxesResI fl [] [] [] [] [] []
  | cons {g gs x xs c cs y y' ys lo hi ws ws'} : AxisResI fl g x c y y' lo hi → AxesResI fl gs xs cs ys ws ws' →
      AxesResI fl (g :: gs) (x :: xs) (c :: cs) (y' :: ys) ((lo, hi, y) :: ws) ((lo, hi, y') :: ws')

theorem axes_resI (h : Ieee fl) {grids : List (List ℝ)} (hne : ∀ g ∈ grids, g ≠ []) (hinc : ∀ g ∈ grids, g.Pairwise (· < ·)) (hg : ∀ g ∈ grids, AxisRange g) {x : List ℝ}
    (hx : x.length = grids.length) (hd : ∀ a ∈ x, Double64 a) :
    ∃ cs ys ws ws', axesI fl grids x = .ok (cs, ys.map num) ∧ AxesResI fl grids x cs ys ws ws' := by
  induction grids generalizing x with
  | nil =>
    cases x with
    | nil => exact ⟨[], [], [], [], rfl, .nil⟩
    | cons a t => simp at hx
  | cons g gs ih =>
    cases x with
    | nil => simp at hx
    | cons x xs =>
      obtain ⟨c, y, y', lo, hi, he, hr⟩ := axis_resI h (hne g (by simp)) (hinc g (by simp)) (hg g (by simp)) (hd x (by simp))
      obtain ⟨cs, ys, ws, ws', he', hr'⟩ := ih (fun g' h' => hne g' (by simp [h'])) (fun g' h' => hinc g' (by simp [h'])) (fun g' h' => hg g' (by simp [h']))
        (x := xs) (by simpa using hx) (fun a ha => hd a (by simp [ha]))
      exact ⟨c :: cs, y' :: ys, (lo, hi, y) :: ws, (lo, hi, y') :: ws', by simp [axesI, he, he'], .cons hr hr'⟩

theorem AxesResI.toExact {grids : List (List ℝ)} {x : List ℝ} {cs : List Int} {ys : List ℝ} {ws ws' : List (Nat × Nat × ℝ)}
    (h : AxesResI fl grids x cs ys ws ws') : AxesRes grids x cs (ws.map (·.2.2)) ws := by
  induction h with
  | nil => exact .nil
  | cons h1 _ ih => exact .cons h1.toExact ih

theorem AxesResI.same {grids : List (List ℝ)} {x : List ℝ} {cs : List Int} {ys : List ℝ} {ws ws' : List (Nat × Nat × ℝ)}
    (h : AxesResI fl grids x cs ys ws ws') : ws'.length = grids.length ∧ ys = ws'.map (·.2.2) ∧ ∀ v, pickIdx ws' v = pickIdx ws v := by
  have hl : ws'.length = ws.length := by
    induction h with
    | nil => rfl
    | cons _ _ ih => simp [ih]
  refine ⟨hl.trans h.toExact.length.1, ?_, ?_⟩
  · clear hl
    induction h with
    | nil => rfl
    | cons _ _ ih => simp [ih]
  · clear hl
    induction h with
    | nil => intro v; rfl
    | @cons _ _ _ _ _ _ _ _ _ _ _ ws ws' _ h2 ih =>
      intro v
      have : ws'.length = ws.length := by
        clear ih
        induction h2 with
        | nil => rfl
        | cons _ _ ih => simp [ih]
      simp [pickIdx, ih, this]

/-- One step of the recursion. -/
noncomputable def mixI (fl : ℝ → Option ℝ) (y l u : Dbl ℝ) : Dbl ℝ := fadd fl l (fmul fl y (fsub fl u l))

/-- Iterated linear interpolation as computed. -/
noncomputable def cubeI (fl : ℝ → Option ℝ) : List (Nat × Nat × ℝ) → (List Nat → ℝ) → Dbl ℝ
  | [], F => num (F [])
  | (lo, hi, y) :: ws, F => mixI fl (num y) (cubeI fl ws (fun is => F (lo :: is))) (cubeI fl ws (fun is => F (hi :: is)))

theorem unitcubeI_verts (ws : List (Nat × Nat × ℝ)) (hne : ws ≠ []) (F : List Nat → ℝ) :
    unitcubeI fl ((verts ws F).map num) ((ws.map (·.2.2)).map num) = .ok (cubeI fl ws F) := by
  induction ws generalizing F with
  | nil => exact absurd rfl hne
  | cons w ws ih =>
    obtain ⟨lo, hi, y⟩ := w
    cases ws with
    | nil => simp [verts, unitcubeI, cubeI, mixI, vIdx]
    | cons w' ws' =>
      have hlen := verts_length (w' :: ws') (fun is => F (lo :: is))
      have hlen' := verts_length (w' :: ws') (fun is => F (hi :: is))
      rw [verts, List.map_append]
      simp only [List.map_cons, unitcubeI]
      rw [show ((verts (w' :: ws') (fun is => F (lo :: is))).map num ++ (verts (w' :: ws') (fun is => F (hi :: is))).map num : List (Dbl ℝ)).length / 2
        = ((verts (w' :: ws') (fun is => F (lo :: is))).map num : List (Dbl ℝ)).length by rw [List.length_append, List.length_map, List.length_map]; omega]
      rw [List.take_left', List.drop_left']
      · have h1 := ih (by simp) (fun is => F (lo :: is))
        have h2 := ih (by simp) (fun is => F (hi :: is))
        simp only [List.map_cons] at h1 h2
        rw [h1, h2]
        rfl
      · rfl
      · rfl

theorem interp_of_axesI {grids : List (List ℝ)} {values : List ℝ} {F : List Nat → ℝ} (hg : Axes grids)
    (hF : Holds (grids.map List.length) values F) {x : List ℝ} {cs : List Int} {ys : List ℝ} {ws ws' : List (Nat × Nat × ℝ)} (he : axesI fl grids x = .ok (cs, (ws'.map (·.2.2)).map num))
    (hr : AxesRes grids x cs ys ws) (hl : ws'.length = grids.length) (hp : ∀ v, pickIdx ws' v = pickIdx ws v) :
    interpMultilinearI fl ⟨grids, values⟩ x = .ok (cubeI fl ws' F) := by
  unfold interpMultilinearI
  simp only [he, Res.ok_bind]
  have hloop := forRange_ok (lo := 0) (hi := 1 <<< grids.length) (Nat.zero_le _)
    (f := fun v f => do
      let y ← getFValV ⟨grids, values⟩ cs v
      return f ++ [num y]) (fun n => ((List.range n).map (fun v => F (pickIdx ws' v))).map num) (by
      intro i _ _
      unfold getFValV getFVal
      simp only
      rw [fIndex_bits hr, mdRead_eq hF (pickIdx_inside hr i)]
      simp [List.range_succ, hp])
  simp only [List.range_zero, List.map_nil] at hloop
  rw [hloop, Res.ok_bind, Nat.shiftLeft_eq, Nat.one_mul, ← hl, verts_eq]
  apply unitcubeI_verts
  intro hw
  rw [hw] at hl
  exact hg.dims (List.length_eq_zero_iff.mp hl.symm)

theorem interp_cubeI (h : Ieee fl) {grids : List (List ℝ)} {values : List ℝ} {F : List Nat → ℝ} (hg : Axes grids) (hr : ∀ g ∈ grids, AxisRange g)
    (hF : Holds (grids.map List.length) values F) {x : List ℝ} (hx : x.length = grids.length) (hd : ∀ a ∈ x, Double64 a) :
    ∃ cs ys ws ws', AxesResI fl grids x cs ys ws ws' ∧ interpMultilinearI fl ⟨grids, values⟩ x = .ok (cubeI fl ws' F) := by
  obtain ⟨cs, ys, ws, ws', he, hr⟩ := axes_resI h hg.nonempty hg.increasing hr hx hd
  obtain ⟨h1, h2, h3⟩ := hr.same
  exact ⟨cs, ys, ws, ws', hr, interp_of_axesI hg hF (by rw [he, h2]) hr.toExact h1 h3⟩

theorem mixI_same (h : Ieee fl) (y : ℝ) {l : ℝ} (hl : Double64 l) : mixI fl (num y) (num l) (num l) = num l := by
  have h0 := ofReal_some (ieee_double h double64_zero)
  have e1 : fsub fl (num l) (num l) = num 0 := by
    rw [← h0, ← sub_self l, sub_eq_add_neg]; rfl
  have e2 : fmul fl (num y) (num 0) = num 0 := by
    show ofReal fl (y * 0) = num 0
    rw [mul_zero, h0]
  unfold mixI
  rw [e1, e2]
  show ofReal fl (l + 0) = num l
  rw [add_zero, ofReal_some (ieee_double h hl)]

theorem mixI_zero (h : Ieee fl) {l u : ℝ} (hl : Double64 l) (hu : Double64 u) (ho : |u - l| < overflow64) : mixI fl (num 0) (num l) (num u) = num l := by
  obtain ⟨ε, -, -, e1⟩ := fsub_ok h hu hl ho
  unfold mixI
  rw [e1]
  show fadd fl (num l) (ofReal fl (0 * _)) = num l
  rw [zero_mul, ofReal_some (ieee_double h double64_zero)]
  show ofReal fl (l + 0) = num l
  rw [add_zero, ofReal_some (ieee_double h hl)]

theorem AxisResI.node (hfl : Ieee fl) {g : List ℝ} (hinc : g.Pairwise (· < ·)) {x y y' : ℝ} {c : Int} {lo hi : Nat} (h : AxisResI fl g x c y y' lo hi)
    {i : Nat} (hi' : g[i]? = some x) {p : Nat → ℝ} (hp : Double64 (p lo)) (hq : Double64 (p hi)) (ho : |p hi - p lo| < overflow64) :
    mixI fl (num y') (num (p lo)) (num (p hi)) = num (p i) := by
  have hil := (List.getElem?_eq_some_iff.mp hi').1
  cases h with
  | below a h0 hx => exact absurd (getElem?_le hinc h0 hi' (Nat.zero_le _)) (not_le.mpr hx)
  | above b h0 hx =>
    have : i = g.length - 1 := by
      by_contra hc
      exact absurd (getElem?_lt hinc hi' h0 (by omega)) (not_lt.mpr hx)
    subst this; exact mixI_same hfl _ hp
  | inside lo a b _ h0 h1 ha hb _ _ _ h5 =>
    have h2 : i ≤ lo := by
      by_contra hc
      exact absurd (getElem?_le hinc h1 hi' (by omega)) (not_le.mpr hb)
    have h3 : i = lo := by
      by_contra hc
      exact absurd (getElem?_lt hinc hi' h0 (by omega)) (not_lt.mpr ha)
    subst h3
    rw [h0] at hi'
    cases hi'
    rw [h5 rfl]
    exact mixI_zero hfl hp hq ho

theorem cubeI_node (hfl : Ieee fl) {grids : List (List ℝ)} (hinc : ∀ g ∈ grids, g.Pairwise (· < ·)) {x : List ℝ} {cs : List Int} {ys : List ℝ}
    {ws ws' : List (Nat × Nat × ℝ)} (h : AxesResI fl grids x cs ys ws ws') {idx : List Nat} (hn : IsNode grids idx x) {F : List Nat → ℝ}
    (hF : ∀ idx, Inside idx (grids.map List.length) → Double64 (F idx))
    (ho : ∀ i j, Inside i (grids.map List.length) → Inside j (grids.map List.length) → |F i - F j| < overflow64) :
    Inside idx (grids.map List.length) ∧ cubeI fl ws' F = num (F idx) := by
  induction h generalizing idx F with
  | nil => cases hn; exact ⟨.nil, rfl⟩
  | @cons g gs x xs c cs y y' ys lo hi ws ws' h1 h2 ih =>
    cases hn with
    | @cons _ _ i is _ _ hi' hn =>
      have ih := fun j (hj : j < g.length) => ih (F := fun is => F (j :: is)) (fun g' h' => hinc g' (by simp [h'])) hn (fun idx hi => hF _ (.cons hj hi))
        (fun a b ha hb => ho _ _ (.cons hj ha) (.cons hj hb))
      have hl := h1.toExact.lo_lt
      have hh := h1.toExact.hi_lt
      have hin := (ih lo hl).1
      refine ⟨.cons (List.getElem?_eq_some_iff.mp hi').1 hin, ?_⟩
      simp only [cubeI, (ih lo hl).2, (ih hi hh).2]
      exact h1.node hfl (hinc g (by simp)) hi' (p := fun j => F (j :: is)) (hF _ (.cons hl hin)) (hF _ (.cons hh hin)) (ho _ _ (.cons hh hin) (.cons hl hin))

theorem cubeI_const (hfl : Ieee fl) {k : ℝ} (hk : Double64 k) {grids : List (List ℝ)} {x : List ℝ} {cs : List Int} {ys : List ℝ}
    {ws ws' : List (Nat × Nat × ℝ)} (h : AxesResI fl grids x cs ys ws ws') {F : List Nat → ℝ}
    (hF : ∀ idx, Inside idx (grids.map List.length) → F idx = k) : cubeI fl ws' F = num k := by
  induction h generalizing F with
  | nil => simp only [cubeI]; rw [hF [] .nil]
  | @cons g gs x xs c cs y y' ys lo hi ws ws' h1 h2 ih =>
    have el := ih (F := fun is => F (lo :: is)) (fun idx hi => hF _ (.cons h1.toExact.lo_lt hi))
    have eu := ih (F := fun is => F (hi :: is)) (fun idx hi => hF _ (.cons h1.toExact.hi_lt hi))
    simp only [cubeI, el, eu]
    exact mixI_same hfl _ hk

/-- The error of one step. -/
theorem mixI_err (hfl : Ieee fl) {l u l' u' y y' M E : ℝ} (hy0 : 0 ≤ y) (hy1 : y ≤ 1) (hz0 : 0 ≤ y') (hz1 : y' ≤ 1) (hy : |y' - y| ≤ 6 * uround) (hl : |l| ≤ M) (hu : |u| ≤ M)
    (dl : Double64 l') (du : Double64 u') (hl' : |l' - l| ≤ E - M) (hu' : |u' - u| ≤ E - M) (hE : 4 * E + 1 ≤ overflow64) :
    ∃ r, mixI fl (num y') (num l') (num u') = num r ∧ Double64 r ∧ |u' - l'| < overflow64 ∧ |r - (l + y * (u - l))| ≤ (1 + 32 * uround) * E + 4 * tiny - M := by
  have hu0 := uround_pos
  have hu1 : uround ≤ 1 / 1000 := by unfold uround; norm_num
  have ht0 := tiny_pos
  have ht1 : tiny ≤ 1 / 10 := by
    unfold tiny
    exact (zpow_le_zpow_right₀ (by norm_num) (show (-1075 : ℤ) ≤ -4 by norm_num) : (2 : ℝ) ^ (-1075 : ℤ) ≤ 2 ^ (-4 : ℤ)).trans (by norm_num)
  have hlE : |l'| ≤ E := by
    have := abs_add_le (l' - l) l
    rw [sub_add_cancel] at this
    linarith
  have huE : |u'| ≤ E := by
    have := abs_add_le (u' - u) u
    rw [sub_add_cancel] at this
    linarith
  have hE0 : 0 ≤ E := (abs_nonneg _).trans hlE
  have hD : |u' - l'| ≤ 2 * E := by
    have := abs_sub u' l'
    linarith
  have ho : |u' - l'| < overflow64 := by linarith
  obtain ⟨e1, b1, d1, n1⟩ := fsub_ok hfl du dl ho
  generalize hs : (u' - l') * (1 + e1) = s at *
  have hsb : |s| ≤ 2 * E * (1 + uround) := by
    rw [← hs, abs_mul]
    refine mul_le_mul hD ?_ (abs_nonneg _) (by linarith)
    have := abs_add_le 1 e1
    rw [abs_one] at this
    linarith
  have hys : |y' * s| ≤ |s| := by
    rw [abs_mul, abs_of_nonneg hz0]
    exact mul_le_of_le_one_left (abs_nonneg _) hz1
  obtain ⟨e2, t2, b2, c2, d2, n2⟩ := fmul_ok hfl (x := y') (y := s) (hys.trans_lt (double64_le d1))
  generalize hp : y' * s * (1 + e2) + t2 = p at *
  -- the product against the exact one
  have hps : |p - y' * s| ≤ 2 * E * (1 + uround) * uround + tiny := by
    rw [← hp, show y' * s * (1 + e2) + t2 - y' * s = y' * s * e2 + t2 by ring]
    refine (abs_add_le _ _).trans (add_le_add ?_ c2)
    rw [abs_mul]
    exact mul_le_mul (hys.trans hsb) b2 (abs_nonneg _) (mul_nonneg (by linarith) (by linarith))
  have hsd : |y' * s - y' * (u' - l')| ≤ 2 * E * uround := by
    rw [← hs, show y' * ((u' - l') * (1 + e1)) - y' * (u' - l') = y' * ((u' - l') * e1) by ring, abs_mul, abs_of_nonneg hz0]
    refine (mul_le_of_le_one_left (abs_nonneg _) hz1).trans ?_
    rw [abs_mul]
    exact mul_le_mul hD b1 (abs_nonneg _) (by linarith)
  have hyd : |y' * (u' - l') - y * (u' - l')| ≤ 12 * E * uround := by
    rw [← sub_mul, abs_mul]
    have := mul_le_mul hy hD (abs_nonneg _) (by linarith)
    linarith
  have hEu : 0 ≤ E * uround := mul_nonneg hE0 hu0.le
  have hEu' : E * uround * uround ≤ E * uround * (1 / 1000) := mul_le_mul_of_nonneg_left hu1 hEu
  have hpd : |p - y * (u' - l')| ≤ 17 * (E * uround) + tiny := by
    rw [abs_le] at hps hsd hyd ⊢
    constructor <;> nlinarith
  have hEuE : E * uround ≤ E * (1 / 1000) := mul_le_mul_of_nonneg_left hu1 hE0
  have hmix : |l' + y * (u' - l')| ≤ E := by
    rw [show l' + y * (u' - l') = (1 - y) * l' + y * u' by ring]
    refine (abs_add_le _ _).trans ?_
    rw [abs_mul, abs_mul, abs_of_nonneg hy0, abs_of_nonneg (sub_nonneg.2 hy1)]
    have h1 := mul_le_mul_of_nonneg_left hlE (sub_nonneg.2 hy1)
    have h2 := mul_le_mul_of_nonneg_left huE hy0
    linarith
  have hsum : |l' + p| ≤ E + 17 * (E * uround) + tiny := by
    have := abs_add_le (l' + y * (u' - l')) (p - y * (u' - l'))
    rw [show l' + y * (u' - l') + (p - y * (u' - l')) = l' + p by ring] at this
    linarith
  obtain ⟨e3, b3, d3, n3⟩ := fadd_ok hfl dl d2 (show |l' + p| < overflow64 by linarith)
  refine ⟨(l' + p) * (1 + e3), ?_, d3, ho, ?_⟩
  · unfold mixI
    rw [n1, n2, n3]
  · have h1 : |(l' + p) * e3| ≤ (E + 17 * (E * uround) + tiny) * uround := by
      rw [abs_mul]
      exact mul_le_mul hsum b3 (abs_nonneg _) ((abs_nonneg _).trans hsum)
    have h2 : |(1 - y) * (l' - l) + y * (u' - u)| ≤ E - M := by
      refine (abs_add_le _ _).trans ?_
      rw [abs_mul, abs_mul, abs_of_nonneg hy0, abs_of_nonneg (sub_nonneg.2 hy1)]
      have h1 := mul_le_mul_of_nonneg_left hl' (sub_nonneg.2 hy1)
      have h2 := mul_le_mul_of_nonneg_left hu' hy0
      linarith
    have htu : tiny * uround ≤ tiny * (1 / 1000) := mul_le_mul_of_nonneg_left hu1 ht0.le
    rw [show (l' + p) * (1 + e3) - (l + y * (u - l)) = (l' + p) * e3 + (p - y * (u' - l')) + ((1 - y) * (l' - l) + y * (u' - u)) by ring]
    refine (abs_add_le _ _).trans ((add_le_add (abs_add_le _ _) le_rfl).trans ?_)
    have h3 : (E + 17 * (E * uround) + tiny) * uround = E * uround + 17 * (E * uround * uround) + tiny * uround := by ring
    rw [h3] at h1
    linarith

/-- The bound on the computed values of a cube of `n` dimensions whose data are bounded by `M`. -/
noncomputable def growth (M : ℝ) (n : Nat) : ℝ := (1 + 32 * uround) ^ n * (M + n * (4 * tiny))

theorem growth_succ {M : ℝ} (n : Nat) : (1 + 32 * uround) * growth M n + 4 * tiny ≤ growth M (n + 1) := by
  have hu0 := uround_pos
  have ht0 := tiny_pos
  have h1 : (1 : ℝ) ≤ (1 + 32 * uround) ^ (n + 1) := one_le_pow₀ (by linarith)
  unfold growth
  rw [pow_succ'] at h1 ⊢
  push_cast
  generalize (1 + 32 * uround) ^ n = q at *
  have := mul_le_mul_of_nonneg_right h1 (show (0 : ℝ) ≤ 4 * tiny by linarith)
  nlinarith

theorem cubeI_err (hfl : Ieee fl) {grids : List (List ℝ)} {x : List ℝ} {cs : List Int} {ys : List ℝ}
    {ws ws' : List (Nat × Nat × ℝ)} (h : AxesResI fl grids x cs ys ws ws') {F : List Nat → ℝ} {M : ℝ} (hM : 0 ≤ M)
    (hd : ∀ idx, Inside idx (grids.map List.length) → Double64 (F idx))
    (hF : ∀ idx, Inside idx (grids.map List.length) → |F idx| ≤ M) (hE : 4 * growth M grids.length + 1 ≤ overflow64) :
    |cube ws F| ≤ M ∧ ∃ r, cubeI fl ws' F = num r ∧ Double64 r ∧ |r - cube ws F| ≤ growth M grids.length - M := by
  induction h generalizing F with
  | nil => exact ⟨hF [] .nil, _, rfl, hd [] .nil, by simp [cube, growth]⟩
  | @cons g gs x xs c cs y y' ys lo hi ws ws' h1 h2 ih =>
    have hg := growth_succ (M := M) gs.length
    have hu0 := uround_pos
    have ht0 := tiny_pos
    have hg0 : 0 ≤ growth M gs.length :=
      mul_nonneg (pow_nonneg (by linarith) _) (add_nonneg hM (mul_nonneg (Nat.cast_nonneg _) (by linarith)))
    have hug := mul_nonneg hu0.le hg0
    rw [List.length_cons] at hE ⊢
    have hE' : 4 * growth M gs.length + 1 ≤ overflow64 := by nlinarith
    obtain ⟨bl, l', nl, dl, el⟩ := ih (F := fun is => F (lo :: is)) (fun idx hi => hd _ (.cons h1.toExact.lo_lt hi)) (fun idx hi => hF _ (.cons h1.toExact.lo_lt hi)) hE'
    obtain ⟨bu, u', nu, du, eu⟩ := ih (F := fun is => F (hi :: is)) (fun idx hi => hd _ (.cons h1.toExact.hi_lt hi)) (fun idx hi => hF _ (.cons h1.toExact.hi_lt hi)) hE'
    obtain ⟨hy0, hy1⟩ := h1.toExact.frac
    obtain ⟨hz0, hz1, hz⟩ := h1.frac
    refine ⟨?_, ?_⟩
    · simp only [cube]
      rw [show ∀ l u : ℝ, l + y * (u - l) = (1 - y) * l + y * u by intros; ring]
      refine (abs_add_le _ _).trans ?_
      rw [abs_mul, abs_mul, abs_of_nonneg hy0, abs_of_nonneg (sub_nonneg.2 hy1)]
      have h1 := mul_le_mul_of_nonneg_left bl (sub_nonneg.2 hy1)
      have h2 := mul_le_mul_of_nonneg_left bu hy0
      linarith
    · obtain ⟨r, nr, dr, -, er⟩ := mixI_err hfl hy0 hy1 hz0 hz1 hz bl bu dl du el eu hE'
      simp only [cubeI, cube, nl, nu]
      exact ⟨r, nr, dr, er.trans (by linarith)⟩

theorem AxisResI.det {g : List ℝ} (hinc : g.Pairwise (· < ·)) {x y y' z z' : ℝ} {c d : Int} {lo hi lo' hi' : Nat}
    (h : AxisResI fl g x c y y' lo hi) (h' : AxisResI fl g x d z z' lo' hi') : lo = lo' ∧ hi = hi' ∧ y' = z' := by
  cases h with
  | below a h0 hx =>
    cases h' with
    | below a' h0' hx' => exact ⟨rfl, rfl, rfl⟩
    | above b h1 hx' => exact absurd (getElem?_le hinc h0 h1 (Nat.zero_le _)) (not_le.mpr (lt_of_le_of_lt hx' hx))
    | inside lo' a' b' _ h1 h2 ha hb => exact absurd (getElem?_le hinc h0 h1 (Nat.zero_le _)) (not_le.mpr (lt_of_le_of_lt ha hx))
  | above b h0 hx =>
    cases h' with
    | below a h1 hx' => exact absurd (getElem?_le hinc h1 h0 (Nat.zero_le _)) (not_le.mpr (lt_of_le_of_lt hx hx'))
    | above b' h0' hx' => exact ⟨rfl, rfl, rfl⟩
    | inside lo' a' b' _ h1 h2 ha hb =>
      have hl := (List.getElem?_eq_some_iff.mp h2).1
      exact absurd (getElem?_le hinc h2 h0 (by omega)) (not_le.mpr (lt_of_le_of_lt hx hb))
  | inside lo a b _ h1 h2 ha hb _ _ _ _ hy =>
    cases h' with
    | below a' h0 hx => exact absurd (getElem?_le hinc h0 h1 (Nat.zero_le _)) (not_le.mpr (lt_of_le_of_lt ha hx))
    | above b' h0 hx =>
      have hl := (List.getElem?_eq_some_iff.mp h2).1
      exact absurd (getElem?_le hinc h2 h0 (by omega)) (not_le.mpr (lt_of_le_of_lt hx hb))
    | inside lo' a' b' _ h1' h2' ha' hb' _ _ _ _ hy' =>
      have e : lo = lo' := by
        rcases Nat.lt_trichotomy lo lo' with h | h | h
        · exact absurd (getElem?_le hinc h2 h1' (by omega)) (not_le.mpr (lt_of_le_of_lt ha' hb))
        · exact h
        · exact absurd (getElem?_le hinc h2' h1 (by omega)) (not_le.mpr (lt_of_le_of_lt ha hb'))
      subst e
      rw [h1] at h1'; rw [h2] at h2'
      cases h1'; cases h2'
      rw [hy] at hy'
      injection hy' with hy'
      injection hy' with hy'
      exact ⟨rfl, rfl, hy'⟩

theorem AxisResI.clamp (hfl : Ieee fl) {g : List ℝ} (hinc : g.Pairwise (· < ·)) {x x' y y' z z' : ℝ} {c c' : Int} {lo hi lo' hi' : Nat}
    (h : AxisResI fl g x c y y' lo hi) (h' : AxisResI fl g x' c' z z' lo' hi') {a b : ℝ} (ha : g.head? = some a) (hb : g.getLast? = some b)
    (hx' : x' = max a (min x b)) {p : Nat → ℝ} (hp : ∀ i, i < g.length → Double64 (p i)) (ho : ∀ i j, i < g.length → j < g.length → |p i - p j| < overflow64) :
    mixI fl (num y') (num (p lo)) (num (p hi)) = mixI fl (num z') (num (p lo')) (num (p hi')) := by
  have ha0 : g[0]? = some a := by rw [← List.head?_eq_getElem?]; exact ha
  have hb0 : g[g.length - 1]? = some b := by rw [← List.getLast?_eq_getElem?]; exact hb
  have hab : a ≤ b := getElem?_le hinc ha0 hb0 (Nat.zero_le _)
  have hl' := h'.toExact.lo_lt
  have hh' := h'.toExact.hi_lt
  rcases lt_or_ge x a with h1 | h1
  · have : x' = a := by rw [hx', min_eq_left (le_trans h1.le hab), max_eq_left h1.le]
    subst this
    rw [h'.node hfl hinc ha0 (hp _ hl') (hp _ hh') (ho _ _ hh' hl')]
    cases h with
    | below a0 h0 hx => exact mixI_same hfl _ (hp _ (List.getElem?_eq_some_iff.mp h0).1)
    | above b0 h0 hx =>
      rw [hb0] at h0; cases h0
      exact absurd h1 (not_lt.mpr (le_trans hab hx))
    | inside c a0 b0 _ h0 _ h2 _ =>
      exact absurd (getElem?_le hinc ha0 h0 (Nat.zero_le _)) (not_le.mpr (lt_of_le_of_lt h2 h1))
  · rcases lt_or_ge b x with h2 | h2
    · have : x' = b := by rw [hx', min_eq_right h2.le, max_eq_right hab]
      subst this
      rw [h'.node hfl hinc hb0 (hp _ hl') (hp _ hh') (ho _ _ hh' hl')]
      cases h with
      | below a0 h0 hx =>
        rw [ha0] at h0; cases h0
        exact absurd h1 (not_le.mpr hx)
      | above b0 h0 hx => exact mixI_same hfl _ (hp _ (List.getElem?_eq_some_iff.mp h0).1)
      | inside c a0 b0 _ h0 h3 h4 h5 =>
        have hl := (List.getElem?_eq_some_iff.mp h3).1
        exact absurd (getElem?_le hinc h3 hb0 (by omega)) (not_le.mpr (lt_trans h2 h5))
    · have : x' = x := by rw [hx', min_eq_left h2, max_eq_right h1]
      subst this
      obtain ⟨rfl, rfl, rfl⟩ := h.det hinc h'
      rfl

theorem cubeI_clamp (hfl : Ieee fl) {grids : List (List ℝ)} (hinc : ∀ g ∈ grids, g.Pairwise (· < ·)) {x x' : List ℝ} {cs cs' : List Int} {ys ys' : List ℝ}
    {ws wt ws' wt' : List (Nat × Nat × ℝ)} (h : AxesResI fl grids x cs ys ws wt) (h' : AxesResI fl grids x' cs' ys' ws' wt') (hc : Clamped grids x x')
    {F : List Nat → ℝ} {M : ℝ} (hM : 0 ≤ M) (hd : ∀ idx, Inside idx (grids.map List.length) → Double64 (F idx))
    (hF : ∀ idx, Inside idx (grids.map List.length) → |F idx| ≤ M) (hE : 4 * growth M grids.length + 1 ≤ overflow64) : cubeI fl wt F = cubeI fl wt' F := by
  induction h generalizing x' cs' ys' ws' wt' F with
  | nil => cases h'; rfl
  | @cons g gs x xs c cs y y' ys lo hi ws wt h1 h2 ih =>
    cases h' with
    | @cons _ _ x1 xs1 c1 cs1 z z' zs lo1 hi1 ws1 wt1 h1' h2' =>
      cases hc with
      | cons ha hb hc =>
        have hg := growth_succ (M := M) gs.length
        have hu0 := uround_pos
        have ht0 := tiny_pos
        have hg0 : 0 ≤ growth M gs.length :=
          mul_nonneg (pow_nonneg (by linarith) _) (add_nonneg hM (mul_nonneg (Nat.cast_nonneg _) (by linarith)))
        have hug := mul_nonneg hu0.le hg0
        rw [List.length_cons] at hE
        have hE' : 4 * growth M gs.length + 1 ≤ overflow64 := by nlinarith
        have hdj : ∀ j, j < g.length → ∀ idx, Inside idx (gs.map List.length) → Double64 (F (j :: idx)) := fun j hj idx hi => hd _ (.cons hj hi)
        have hFj : ∀ j, j < g.length → ∀ idx, Inside idx (gs.map List.length) → |F (j :: idx)| ≤ M := fun j hj idx hi => hF _ (.cons hj hi)
        have ih := fun j hj => ih (F := fun is => F (j :: is)) (fun g' h' => hinc g' (by simp [h'])) h2' hc (hdj j hj) (hFj j hj) hE'
        have hv : ∀ j, j < g.length → ∃ r, cubeI fl wt1 (fun is => F (j :: is)) = num r ∧ Double64 r ∧ |r| ≤ growth M gs.length := by
          intro j hj
          obtain ⟨b, r, n, d, e⟩ := cubeI_err hfl h2' hM (hdj j hj) (hFj j hj) hE'
          refine ⟨r, n, d, ?_⟩
          have := abs_add_le (r - cube ws1 (fun is => F (j :: is))) (cube ws1 (fun is => F (j :: is)))
          rw [sub_add_cancel] at this
          linarith
        choose! p hp1 hp2 hp3 using hv
        have hl := h1.toExact.lo_lt
        have hh := h1.toExact.hi_lt
        have hl' := h1'.toExact.lo_lt
        have hh' := h1'.toExact.hi_lt
        simp only [cubeI, ih _ hl, ih _ hh, hp1 _ hl, hp1 _ hh, hp1 _ hl', hp1 _ hh']
        refine h1.clamp hfl (hinc g (by simp)) h1' ha hb rfl (p := p) hp2 (fun i j hi hj => ?_)
        have := abs_sub (p i) (p j)
        have := hp3 i hi
        have := hp3 j hj
        linarith

end MU.NDInterp

namespace MU
open Spec RGI Dbl NDInterp

variable {fl : ℝ → Option ℝ}

theorem interpolateI_loaded {dim : Nat} {grids : List (List ℝ)} {F : List Nat → ℝ} {s : RGI ℝ} (h : Loaded dim grids F s)
    (x : List ℝ) : interpolateI fl s x false = NDInterp.interpMultilinearI fl ⟨grids, s.data.elems⟩ x := by
  obtain ⟨_, _, _, _, _, hi, _⟩ := Loaded.fields h
  simp [interpolateI, hi]

theorem interpolateI_checked {dim : Nat} {grids : List (List ℝ)} {F : List Nat → ℝ} {s : RGI ℝ} (h : Loaded dim grids F s)
    {x : List ℝ} (hx : x.length = dim) :
    (InBox grids x → interpolateI fl s x true = interpolateI fl s x false) ∧
    (¬ InBox grids x → interpolateI fl s x true = .throws .runtimeError) := by
  obtain ⟨_, hd, _, _, _, hi, l, hl, hL⟩ := Loaded.fields h
  obtain ⟨h1, h2⟩ := boundCheck_eq hL (x := x) (by omega)
  refine ⟨fun hb => ?_, fun hb => ?_⟩
  · simp [interpolateI, hl, h1 hb]
  · simp [interpolateI, hl, h2 hb]

/-- Data, axes and coordinates that are finite numbers of `double`, and axes whose length does not overflow. -/
structure FiniteTable (grids : List (List ℝ)) (F : List Nat → ℝ) : Prop where
  axes : ∀ g ∈ grids, ∀ a ∈ g, Double64 a
  lengths : ∀ g ∈ grids, ∀ a ∈ g, ∀ b ∈ g, b - a < overflow64
  data : ∀ idx, Inside idx (grids.map List.length) → Double64 (F idx)

theorem FiniteTable.range {grids : List (List ℝ)} {F : List Nat → ℝ} (h : FiniteTable grids F) : ∀ g ∈ grids, AxisRange g :=
  fun g hg => ⟨h.axes g hg, h.lengths g hg⟩

/-- C188: at a node the answer is exactly the datum of the node, when no difference of two data overflows. -/
theorem C188_node_partial (hfl : Ieee fl) {dim : Nat} {grids : List (List ℝ)} {F : List Nat → ℝ} {s : RGI ℝ} (h : Loaded dim grids F s) (ht : FiniteTable grids F)
    (ho : ∀ i j, Inside i (grids.map List.length) → Inside j (grids.map List.length) → |F i - F j| < overflow64) {idx : List Nat} {x : List ℝ}
    (hx : IsNode grids idx x) (bound_check : Bool) : interpolateI fl s x bound_check = .ok (num (F idx)) := by
  obtain ⟨hg, hd, _, hH, _⟩ := Loaded.fields h
  have hlen := IsNode.len hx
  have hbox := IsNode.inBox hx hg.increasing
  have hxd : ∀ a ∈ x, Double64 a := by
    have hax := ht.axes
    clear * - hx hax
    induction hx with
    | nil => simp
    | @cons g gs i is a as hi _ ih =>
      intro b hb
      rcases List.mem_cons.1 hb with rfl | hb
      · exact hax g (by simp) _ (List.mem_of_getElem? hi)
      · exact ih (fun g' hg' => hax g' (by simp [hg'])) b hb
  have hf : interpolateI fl s x false = .ok (num (F idx)) := by
    rw [interpolateI_loaded h]
    obtain ⟨cs, ys, ws, ws', hR, he⟩ := NDInterp.interp_cubeI hfl hg ht.range hH hlen hxd
    rw [he, (NDInterp.cubeI_node hfl hg.increasing hR hx ht.data ho).2]
  cases bound_check with
  | false => exact hf
  | true => rw [(interpolateI_checked h (by omega)).1 hbox, hf]

/-- C188: on data that are all the same finite number, however large, the answer is exactly this number, at every finite point. -/
theorem C188_constant (hfl : Ieee fl) {dim : Nat} {grids : List (List ℝ)} {F : List Nat → ℝ} {s : RGI ℝ} (h : Loaded dim grids F s) (ht : FiniteTable grids F) {k : ℝ}
    (hk : Double64 k) (hF : ∀ idx, Inside idx (grids.map List.length) → F idx = k) {x : List ℝ} (hx : x.length = dim) (hxd : ∀ a ∈ x, Double64 a) :
    interpolateI fl s x false = .ok (num k) := by
  obtain ⟨hg, hd, _, hH, _⟩ := Loaded.fields h
  rw [interpolateI_loaded h]
  obtain ⟨cs, ys, ws, ws', hR, he⟩ := NDInterp.interp_cubeI hfl hg ht.range hH (hx.trans hd.symm) hxd
  rw [he, NDInterp.cubeI_const hfl hk hR hF]

theorem four_tiny : 4 * tiny = 1 / 2 ^ 1073 := by
  unfold tiny
  rw [show (-1075 : ℤ) = -2 + -1073 by norm_num, zpow_add₀ (by norm_num), ← mul_assoc, zpow_neg _ 1073, show ((2 : ℝ) ^ (1073 : ℤ)) = 2 ^ 1073 from zpow_natCast _ _]
  norm_num

theorem growth_eq (M : ℝ) (n : Nat) : growth M n = (1 + 32 / 2 ^ 53) ^ n * (M + n / 2 ^ 1073) := by
  unfold growth
  rw [four_tiny, show 32 * uround = 32 / 2 ^ 53 by unfold uround; ring, mul_one_div]

theorem growth_small {e : ℝ} (h : e ≤ 2 ^ 1021) : 4 * e + 1 ≤ overflow64 := by
  have h2 : (2 : ℝ) ^ 1024 = 8 * 2 ^ 1021 := by rw [show (1024 : ℕ) = 3 + 1021 by norm_num, pow_add]; norm_num
  have h3 : (2 : ℝ) ^ 970 ≤ 2 ^ 1021 := pow_le_pow_right₀ (by norm_num) (by norm_num)
  have h4 : (1 : ℝ) ≤ 2 ^ 1021 := one_le_pow₀ (by norm_num)
  unfold overflow64
  rw [h2]
  generalize (2 : ℝ) ^ 1021 = P at *
  generalize (2 : ℝ) ^ 970 = Q at *
  clear h2
  linarith only [h, h3, h4]

/-- C188: on finite data of moderate size the answer at every finite point is a finite number, and it is the exact interpolant (the `w` of C16 to C18) up to
rounding: `E - M` with `E = (1 + 32u)^dim (M + dim 2^-1073)`, where `M` bounds the data and `u = 2^-53`. -/
theorem C188_finite_partial (hfl : Ieee fl) {dim : Nat} {grids : List (List ℝ)} {F : List Nat → ℝ} {s : RGI ℝ} (h : Loaded dim grids F s) (ht : FiniteTable grids F)
    {M : ℝ} (hM : 0 ≤ M) (hF : ∀ idx, Inside idx (grids.map List.length) → |F idx| ≤ M) (hE : (1 + 32 / 2 ^ 53) ^ dim * (M + dim / 2 ^ 1073) ≤ 2 ^ 1021)
    {x : List ℝ} (hx : x.length = dim) (hxd : ∀ a ∈ x, Double64 a) :
    ∃ v w, interpolateI fl s x false = .ok (num v) ∧ Double64 v ∧ interpolate s x false = .ok w ∧ |v - w| ≤ (1 + 32 / 2 ^ 53) ^ dim * (M + dim / 2 ^ 1073) - M := by
  obtain ⟨hg, hd, _, hH, _⟩ := Loaded.fields h
  obtain ⟨cs, ys, ws, ws', hR, he⟩ := NDInterp.interp_cubeI hfl hg ht.range hH (hx.trans hd.symm) hxd
  obtain ⟨cs1, ys1, ws1, hR1, he1⟩ := NDInterp.interp_cube hg hH (hx.trans hd.symm)
  have hw : ws1 = ws := hR1.det hg.increasing hR.toExact
  rw [← growth_eq] at hE ⊢
  rw [← hd] at hE ⊢
  obtain ⟨-, r, nr, dr, er⟩ := NDInterp.cubeI_err hfl hR hM ht.data hF (growth_small hE)
  exact ⟨r, _, by rw [interpolateI_loaded h, he, nr], dr, by rw [interpolate_loaded h, he1, hw], er⟩

/-- C188: without bound check a point outside the box has exactly the value of the nearest point of the box. -/
theorem C188_clamping_partial (hfl : Ieee fl) {dim : Nat} {grids : List (List ℝ)} {F : List Nat → ℝ} {s : RGI ℝ} (h : Loaded dim grids F s) (ht : FiniteTable grids F)
    {M : ℝ} (hM : 0 ≤ M) (hF : ∀ idx, Inside idx (grids.map List.length) → |F idx| ≤ M) (hE : (1 + 32 / 2 ^ 53) ^ dim * (M + dim / 2 ^ 1073) ≤ 2 ^ 1021)
    {x x' : List ℝ} (hxd : ∀ a ∈ x, Double64 a) (hxd' : ∀ a ∈ x', Double64 a) (hc : Clamped grids x x') :
    ∃ v, interpolateI fl s x false = .ok v ∧ interpolateI fl s x' false = .ok v := by
  obtain ⟨hg, hd, _, hH, _⟩ := Loaded.fields h
  have hlen := Clamped.len hc
  obtain ⟨cs, ys, ws, wt, hR, he⟩ := NDInterp.interp_cubeI hfl hg ht.range hH hlen.1 hxd
  obtain ⟨cs', ys', ws', wt', hR', he'⟩ := NDInterp.interp_cubeI hfl hg ht.range hH hlen.2 hxd'
  rw [← growth_eq, ← hd] at hE
  refine ⟨NDInterp.cubeI fl wt F, ?_, ?_⟩
  · rw [interpolateI_loaded h, he]
  · rw [interpolateI_loaded h, he', NDInterp.cubeI_clamp hfl hg.increasing hR hR' hc hM ht.data hF (growth_small hE)]

/-- C188: with bound check the call throws `runtime_error` exactly for the finite points outside the box, and otherwise returns what it returns without. -/
theorem C188_bound_check (hfl : Ieee fl) {dim : Nat} {grids : List (List ℝ)} {F : List Nat → ℝ} {s : RGI ℝ} (h : Loaded dim grids F s) (ht : FiniteTable grids F)
    {x : List ℝ} (hx : x.length = dim) (hxd : ∀ a ∈ x, Double64 a) :
    (interpolateI fl s x true = .throws .runtimeError ↔ ¬ InBox grids x) ∧
    (InBox grids x → ∃ v, interpolateI fl s x true = .ok v ∧ interpolateI fl s x false = .ok v) := by
  obtain ⟨hg, hd, _, hH, _⟩ := Loaded.fields h
  obtain ⟨cs, ys, ws, ws', hR, he⟩ := NDInterp.interp_cubeI hfl hg ht.range hH (hx.trans hd.symm) hxd
  obtain ⟨h1, h2⟩ := interpolateI_checked (fl := fl) h hx
  have hin : InBox grids x → ∃ v, interpolateI fl s x true = .ok v ∧ interpolateI fl s x false = .ok v := fun hb =>
    ⟨_, by rw [h1 hb, interpolateI_loaded h, he], by rw [interpolateI_loaded h, he]⟩
  refine ⟨⟨fun ht hb => ?_, h2⟩, hin⟩
  obtain ⟨v, hv, _⟩ := hin hb
  rw [hv] at ht; cases ht

/-- A table with two nodes. -/
theorem pairLoaded {a b : ℝ} (hab : a < b) (p q : ℝ) : ∃ s, Loaded 1 [[a, b]] (fun idx => if idx = [0] then p else q) s := by
  have hp : [a, b].Pairwise (· < ·) := by simpa using hab
  have h1 : RGI.increasing [a, b] = true := (RGI.increasing_iff _).2 hp
  refine ⟨((RGI.addVar 1 ⟨[2], [p, q]⟩).run (RGI.execAll 1 [.addCoord [a, b]] (RGI.new ℝ 1)).2).2, by norm_num, [.addCoord [a, b]],
    (RGI.execAll 1 [.addCoord [a, b]] (RGI.new ℝ 1)).1, (RGI.execAll 1 [.addCoord [a, b]] (RGI.new ℝ 1)).2, ⟨[2], [p, q]⟩, rfl, ?_, ?_, ?_, ⟨?_, ?_⟩, ?_⟩
  · simp [RGI.execAll, RGI.exec, RGI.addCoord, RGI.new, h1, Alive]
  · simp only [acceptedAxes, List.filterMap_cons, axisArg, List.filterMap_nil, List.filter_cons, hp, decide_true, if_true, List.filter_nil]
  · rfl
  · rfl
  · intro idx h
    cases h with
    | @cons i _ is _ hi h =>
      cases h
      match i, hi with
      | 0, _ => rfl
      | 1, _ => rfl
  · refine Prod.ext ?_ rfl
    simp [RGI.execAll, RGI.exec, RGI.addCoord, RGI.addVar, RGI.new, h1, RGI.build, RGI.computeLimits, vIdx, NDInterp.new]

theorem pairTable {a b p q : ℝ} (hab : a < b) (ha : Double64 a) (hb : Double64 b) (hp : Double64 p) (hq : Double64 q) (ho : b - a < overflow64) :
    FiniteTable [[a, b]] (fun idx => if idx = [0] then p else q) := by
  have h0 : (0 : ℝ) < overflow64 := lt_of_le_of_lt (abs_nonneg _) (double64_le double64_zero)
  refine ⟨?_, ?_, ?_⟩
  · intro g hg x hx
    simp only [List.mem_singleton] at hg
    subst hg
    simp only [List.mem_cons, List.not_mem_nil, or_false] at hx
    rcases hx with rfl | rfl <;> assumption
  · intro g hg x hx y hy
    simp only [List.mem_singleton] at hg
    subst hg
    simp only [List.mem_cons, List.not_mem_nil, or_false] at hx hy
    rcases hx with rfl | rfl <;> rcases hy with rfl | rfl <;> linarith
  · intro idx _
    split <;> assumption

theorem double64_big : Double64 ((2 : ℝ) ^ 1023) ∧ Double64 (-(2 : ℝ) ^ 1023) ∧ overflow64 ≤ (2 : ℝ) ^ 1023 - -(2 : ℝ) ^ 1023 := by
  have e : (2 : ℝ) ^ 1023 = 2 ^ 52 * (2 : ℝ) ^ (971 : ℤ) := by
    rw [show (2 : ℝ) ^ (971 : ℤ) = 2 ^ 971 from zpow_natCast _ _, ← pow_add]
  refine ⟨⟨2 ^ 52, 971, by norm_num, by norm_num, by norm_num, ?_⟩, ⟨-2 ^ 52, 971, by norm_num, by norm_num, by norm_num, ?_⟩, ?_⟩
  · rw [e]; push_cast; ring
  · rw [e]; push_cast; ring
  · have h2 : (2 : ℝ) ^ 1024 = 2 * 2 ^ 1023 := by rw [show (1024 : ℕ) = 1 + 1023 by norm_num, pow_add]; norm_num
    have h3 : (0 : ℝ) < 2 ^ 970 := by positivity
    unfold overflow64
    rw [h2]
    generalize (2 : ℝ) ^ 1023 = P at *
    generalize (2 : ℝ) ^ 970 = Q at *
    linarith only [h3]

/-- C188 is false for data whose differences overflow: between `-2^1023` and `2^1023`, both finite numbers, the answer at the first node is NaN, with or without bound check. -/
theorem C188_refuted : ∃ (grids : List (List ℝ)) (F : List Nat → ℝ) (s : RGI ℝ), Loaded 1 grids F s ∧ FiniteTable grids F ∧ IsNode grids [0] [0] ∧
    ∀ fl, Ieee fl → ∀ bound_check, interpolateI fl s [0] bound_check = .ok nan := by
  obtain ⟨d1, d2, ho⟩ := double64_big
  have dz := double64_zero
  have d1' : Double64 (1 : ℝ) := by simpa using double64_pow (e := 0) (by norm_num) (by norm_num)
  have h1O : (1 : ℝ) < overflow64 := by simpa using double64_le d1'
  obtain ⟨s, hs⟩ := pairLoaded (show (0 : ℝ) < 1 by norm_num) (-(2 : ℝ) ^ 1023) (2 ^ 1023)
  have ht := pairTable (show (0 : ℝ) < 1 by norm_num) dz d1' d2 d1 (by simpa using h1O)
  have hn : IsNode [[(0 : ℝ), 1]] [0] [0] := .cons rfl .nil
  refine ⟨_, _, s, hs, ht, hn, ?_⟩
  intro fl hfl bc
  obtain ⟨hg, hd, _, hH, _⟩ := Loaded.fields hs
  have hf : interpolateI fl s [0] false = .ok nan := by
    rw [interpolateI_loaded hs]
    obtain ⟨cs, ys, ws, ws', hR, he⟩ := NDInterp.interp_cubeI hfl hg ht.range hH (x := [0]) rfl (by simpa using dz)
    rw [he]
    congr 1
    cases hR with
    | cons h1 h2 =>
      cases h2
      cases h1 with
      | below a h0 hx => simp at h0; subst h0; norm_num at hx
      | above b h0 hx => simp at h0; subst h0; norm_num at hx
      | inside _ a b y' h0 h1 ha hb _ _ _ h5 =>
        rename Nat => c
        have hc : c = 0 := by
          have := (List.getElem?_eq_some_iff.mp h1).1
          simp at this
          omega
        subst hc
        simp at h0
        subst h0
        rw [h5 rfl]
        simp only [cubeI, mixI, if_true]
        rw [show ([0 + 1] : List Nat) = [1] from rfl, if_neg (by decide)]
        have e1 : fsub fl (num ((2 : ℝ) ^ 1023)) (num (-(2 : ℝ) ^ 1023)) = pinf := by
          rw [← ofReal_pinf hfl ho, sub_eq_add_neg]; rfl
        rw [e1]
        simp [fmul, fadd, Dbl.mul, Dbl.add, rounded]
  cases bc with
  | false => exact hf
  | true => rw [(interpolateI_checked hs (by rfl)).1 (IsNode.inBox hn hg.increasing), hf]

/-- C188 is false for axes whose length overflows: on the axis from `-2^1023` to `2^1023` with the data 0 and 1 the answer in the middle is 0, and 1/2 is exact. -/
theorem C188_refuted_axis : ∃ (a b : ℝ) (s : RGI ℝ), Double64 a ∧ Double64 b ∧ Loaded 1 [[a, b]] (fun idx => if idx = [0] then 0 else 1) s ∧
    interpolate s [0] false = .ok (1 / 2) ∧ ∀ fl, Ieee fl → interpolateI fl s [0] false = .ok (num 0) := by
  obtain ⟨d1, d2, ho⟩ := double64_big
  have d1' : Double64 (1 : ℝ) := by simpa using double64_pow (e := 0) (by norm_num) (by norm_num)
  have hP : (0 : ℝ) < 2 ^ 1023 := pow_pos (by norm_num) _
  generalize (2 : ℝ) ^ 1023 = P at *
  have hab : -P < P := by linarith
  obtain ⟨s, hs⟩ := pairLoaded hab 0 1
  obtain ⟨hg, hd, _, hH, _⟩ := Loaded.fields hs
  refine ⟨-P, P, s, d2, d1, hs, ?_, fun fl hfl => ?_⟩
  · rw [interpolate_loaded hs]
    obtain ⟨cs, ys, ws, hR, he⟩ := NDInterp.interp_cube hg hH (x := [0]) rfl
    rw [he]
    congr 1
    cases hR with
    | cons h1 h2 =>
      cases h2
      cases h1 with
      | below a h0 hx => simp at h0; subst h0; linarith
      | above b h0 hx => simp at h0; subst h0; linarith
      | inside _ a b h0 h1 ha hb =>
        rename Nat => c
        have hc : c = 0 := by
          have := (List.getElem?_eq_some_iff.mp h1).1
          simp at this
          omega
        subst hc
        simp at h0 h1
        subst h0 h1
        simp [cube]
        field_simp
        norm_num
  · have e1 : fsub fl (num P) (num (-P)) = pinf := by
      rw [← ofReal_pinf hfl ho, sub_eq_add_neg]; rfl
    have e2 : fsub fl (num 0) (num (-P)) = num P := by
      rw [← ofReal_some (ieee_double hfl d1)]
      show ofReal fl (0 + - -P) = _
      rw [zero_add, neg_neg]
    obtain ⟨k, hk, hkl, hks⟩ := upperBound_spec (l := [-P, P]) (by simpa using hab.le) 0
    have hk1 : k = 1 := by
      have h0 := hks 0 (by simp)
      have h1 := hks 1 (by simp)
      simp at h0 h1 hkl
      have := h0.2 hP.le
      have : ¬ 1 < k := fun h => absurd (h1.1 h) (not_le.2 hP)
      omega
    subst hk1
    have hax : axisI fl [-P, P] 0 = .ok (0, num 0) := by
      unfold axisI findCell
      simp [vIdx, hk, not_le.2 hP, not_lt.2 hP.le, e1, e2, fquot, Dbl.lt]
    have hm := mixI_zero hfl double64_zero d1' (by simpa using double64_le d1')
    have hr : AxesRes [[-P, P]] [0] [((0 : Nat) : Int)] [(0 - -P) / (P - -P)] [(0, 0 + 1, (0 - -P) / (P - -P))] :=
      .cons (.inside 0 (-P) P rfl rfl (by linarith) hP) .nil
    rw [interpolateI_loaded hs, interp_of_axesI (ws' := [(0, 1, 0)]) hg hH (by simp [axesI, hax]) hr rfl (fun v => by simp [pickIdx])]
    simpa [cubeI] using hm

example : ∃ fl, Ieee fl ∧ ∃ s, interpolateI fl s [3] true = .ok (num (2 ^ 1000)) ∧ interpolateI fl s [9] true = .throws .runtimeError ∧
    (∃ v, interpolateI fl s [9] false = .ok v ∧ interpolateI fl s [3] false = .ok v) ∧
    ∃ v w, interpolateI fl s [2] false = .ok (num v) ∧ interpolate s [2] false = .ok w ∧ |v - w| ≤ 2 ^ 1000 / 2 ^ 40 := by
  have hi : ∀ n : ℤ, |n| < 2 ^ 53 → Double64 (n : ℝ) := double64_int
  have d1 : Double64 (1 : ℝ) := by simpa using hi 1 (by norm_num)
  have d2 : Double64 (2 : ℝ) := by simpa using hi 2 (by norm_num)
  have d3 : Double64 (3 : ℝ) := by simpa using hi 3 (by norm_num)
  have d9 : Double64 (9 : ℝ) := by simpa using hi 9 (by norm_num)
  have hO := double64_le d9
  rw [abs_of_pos (by norm_num)] at hO
  have dP : Double64 ((2 : ℝ) ^ 1000) := by
    refine ⟨2 ^ 29, 971, by norm_num, by norm_num, by norm_num, ?_⟩
    rw [show (2 : ℝ) ^ (971 : ℤ) = 2 ^ 971 from zpow_natCast _ _]
    rw [show (2 : ℝ) ^ 1000 = 2 ^ 29 * 2 ^ 971 by rw [← pow_add]]
    congr 1
    norm_num
  obtain ⟨s, hs⟩ := pairLoaded (show (1 : ℝ) < 3 by norm_num) 0 (2 ^ 1000)
  have ht := pairTable (show (1 : ℝ) < 3 by norm_num) d1 d3 double64_zero dP (by linarith only [hO])
  have hP1 : (1 : ℝ) ≤ 2 ^ 1000 := one_le_pow₀ (by norm_num)
  have hF : ∀ idx, Inside idx ([[(1 : ℝ), 3]].map List.length) → |(if idx = [0] then (0 : ℝ) else 2 ^ 1000)| ≤ 2 ^ 1000 := by
    intro idx _
    split
    · rw [abs_zero]; exact zero_le_one.trans hP1
    · rw [abs_of_nonneg (zero_le_one.trans hP1)]
  have hq : (1 : ℝ) / 2 ^ 1073 ≤ 1 / 2 ^ 53 := one_div_le_one_div_of_le (by norm_num) (pow_le_pow_right₀ (by norm_num) (by norm_num))
  have hq0 : (0 : ℝ) ≤ 1 / 2 ^ 1073 := one_div_nonneg.2 (pow_nonneg (by norm_num) _)
  have hE : (1 + 32 / 2 ^ 53) ^ 1 * ((2 : ℝ) ^ 1000 + ((1 : ℕ) : ℝ) / 2 ^ 1073) ≤ 2 ^ 1021 := by
    rw [show (2 : ℝ) ^ 1021 = 2 ^ 21 * 2 ^ 1000 by rw [← pow_add], Nat.cast_one]
    generalize (2 : ℝ) ^ 1000 = P at *
    generalize (1 : ℝ) / 2 ^ 1073 = Q at *
    norm_num at hq ⊢
    linarith only [hP1, hq, hq0]
  refine ⟨_, fl64_ieee, s, ?_, ?_, ?_, ?_⟩
  · have := C188_node_partial fl64_ieee hs ht (fun i j hi hj => ?_) (idx := [1]) (x := [3]) (.cons rfl .nil) true
    · rw [this, if_neg (by decide)]
    · have h1 := hF i hi
      have h2 := hF j hj
      have h3 := double64_le double64_big.1
      have h4 : (2 : ℝ) ^ 1023 = 2 ^ 23 * 2 ^ 1000 := by rw [← pow_add]
      rw [abs_of_nonneg (pow_nonneg (by norm_num) _), h4] at h3
      refine (abs_sub _ _).trans_lt ?_
      generalize |(if i = [0] then (0 : ℝ) else 2 ^ 1000)| = A at *
      generalize |(if j = [0] then (0 : ℝ) else 2 ^ 1000)| = B at *
      clear hF hE hs ht dP h4
      generalize (2 : ℝ) ^ 1000 = P at *
      norm_num at h3
      linarith only [h1, h2, h3, hP1]
  · refine (C188_bound_check fl64_ieee hs ht rfl (by simpa using d9)).1.2 ?_
    intro hb
    cases hb with
    | cons ha hb h1 h2 _ =>
      simp at ha hb
      subst ha hb
      norm_num at h2
  · refine C188_clamping_partial fl64_ieee hs ht (zero_le_one.trans hP1) hF hE (by simpa using d9) (by simpa using d3) ?_
    have : Clamped [[(1 : ℝ), 3]] [9] [max 1 (min 9 3)] := .cons rfl rfl .nil
    rw [show max (1 : ℝ) (min 9 3) = 3 by norm_num] at this
    exact this
  · obtain ⟨v, w, h1, -, h2, h3⟩ := C188_finite_partial fl64_ieee hs ht (zero_le_one.trans hP1) hF hE (x := [2]) rfl (by simpa using d2)
    refine ⟨v, w, h1, h2, h3.trans ?_⟩
    rw [Nat.cast_one]
    generalize (2 : ℝ) ^ 1000 = P at *
    generalize (1 : ℝ) / 2 ^ 1073 = Q at *
    norm_num at hq ⊢
    linarith only [hP1, hq, hq0]

example : ∃ fl, Ieee fl ∧ ∃ s, interpolateI fl s [3] false = .ok (num (2 ^ 1023)) := by
  have d1 : Double64 (1 : ℝ) := by simpa using double64_int 1 (by norm_num)
  have d3 : Double64 (3 : ℝ) := by simpa using double64_int 3 (by norm_num)
  have hO := double64_le d1
  rw [abs_one] at hO
  obtain ⟨s, hs⟩ := pairLoaded (show (0 : ℝ) < 1 by norm_num) (2 ^ 1023) (2 ^ 1023)
  refine ⟨_, fl64_ieee, s, C188_constant fl64_ieee hs (pairTable (by norm_num) double64_zero d1 double64_big.1 double64_big.1 (by simpa using hO)) double64_big.1
    (fun idx _ => ite_self _) rfl (by simpa using d3)⟩

end MU
