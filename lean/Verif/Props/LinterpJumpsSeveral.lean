import Verif.Props.LinterpJumps
import Verif.Lemmas.Simplex

set_option linter.unusedSectionVars false
set_option linter.unusedSimpArgs false

/-!
# C186 Interpolation of functions that jump at the nodes: several axes
-/

namespace MU
open Spec NDInterp

variable {K : Type} [Field K] [LinearOrder K] [IsStrictOrderedRing K]

/-! ## Several axes, where the values suffice -/

theorem getFValJumps_mem {t : NDInterp K} {c v : List Int} {r : K} (h : getFValJumps t c v = .ok r) : r ∈ t.values := by
  unfold getFValJumps mdRead at h
  obtain ⟨o, -, h⟩ := Res.bind_eq_ok.mp h
  unfold vIdx at h
  cases ho : t.values[o]? with
  | none => rw [ho] at h; cases h
  | some y =>
    rw [ho] at h
    cases h
    exact List.mem_of_getElem? ho

theorem forN_all {σ : Type} {P : σ → Prop} {f : Nat → σ → Res σ} (hf : ∀ i s s', P s → f i s = .ok s' → P s') (n : Nat) :
    ∀ lo s s', P s → forN n lo f s = .ok s' → P s' := by
  induction n with
  | zero =>
    intro lo s s' h e
    simp only [forN] at e
    cases e
    exact h
  | succ n ih =>
    intro lo s s' h e
    rw [forN] at e
    obtain ⟨u, h1, h2⟩ := Res.bind_eq_ok.mp e
    exact ih _ _ _ (hf _ _ _ h h1) h2

theorem between_mix {m M u v y : K} (hu : m ≤ u ∧ u ≤ M) (hv : m ≤ v ∧ v ≤ M) (hy : 0 ≤ y ∧ y ≤ 1) : m ≤ u + y * (v - u) ∧ u + y * (v - u) ≤ M := by
  constructor <;> nlinarith [mul_nonneg hy.1 (sub_nonneg.mpr hv.1), mul_nonneg (sub_nonneg.mpr hy.2) (sub_nonneg.mpr hu.1),
    mul_nonneg hy.1 (sub_nonneg.mpr hv.2), mul_nonneg (sub_nonneg.mpr hy.2) (sub_nonneg.mpr hu.2)]

theorem unitcube_bounds {m M : K} : ∀ (ys f : List K) (r : K), (∀ y ∈ ys, 0 ≤ y ∧ y ≤ 1) → (∀ u ∈ f, m ≤ u ∧ u ≤ M) → unitcube f ys = .ok r → m ≤ r ∧ r ≤ M := by
  intro ys
  induction ys with
  | nil =>
    intro f r _ _ h
    simp [unitcube] at h
  | cons y ys ih =>
    intro f r hy hf h
    have mem : ∀ {l : List K} {i : Nat} {u : K}, vIdx l i = .ok u → u ∈ l := by
      intro l i u h
      unfold vIdx at h
      cases ho : l[i]? with
      | none => rw [ho] at h; cases h
      | some y => rw [ho] at h; cases h; exact List.mem_of_getElem? ho
    cases ys with
    | nil =>
      simp only [unitcube] at h
      obtain ⟨u, h1, h⟩ := Res.bind_eq_ok.mp h
      obtain ⟨v, h2, h⟩ := Res.bind_eq_ok.mp h
      cases h
      exact between_mix (hf _ (mem h1)) (hf _ (mem h2)) (hy y (by simp))
    | cons y' ys =>
      simp only [unitcube] at h
      obtain ⟨u, h1, h⟩ := Res.bind_eq_ok.mp h
      obtain ⟨v, h2, h⟩ := Res.bind_eq_ok.mp h
      cases h
      have hy' : ∀ z ∈ y' :: ys, 0 ≤ z ∧ z ≤ 1 := fun z hz => hy z (List.mem_cons_of_mem _ hz)
      exact between_mix (ih _ _ hy' (fun u hu => hf u (List.mem_of_mem_take hu)) h1) (ih _ _ hy' (fun u hu => hf u (List.mem_of_mem_drop hu)) h2) (hy y (by simp))

theorem walkJumps_bounds {t : NDInterp K} {cells : List Int} {m M : K} (hv : ∀ u ∈ t.values, m ≤ u ∧ u ≤ M) :
    ∀ (order : List (K × Nat)) (v : List Int) (v0 p A r : K), p ≤ 1 → (∀ o ∈ order, p ≤ o.1 ∧ o.1 ≤ 1) → order.Pairwise (fun a b => a.1 ≤ b.1) →
      m ≤ v0 ∧ v0 ≤ M → simplexWalkJumps t cells order v v0 (A + (1 - p) * v0) = .ok r → A + (1 - p) * m ≤ r ∧ r ≤ A + (1 - p) * M := by
  intro order
  induction order with
  | nil =>
    intro v v0 p A r hp _ _ h0 h
    simp only [simplexWalkJumps] at h
    cases h
    constructor <;> nlinarith [mul_nonneg (sub_nonneg.mpr hp) (sub_nonneg.mpr h0.1), mul_nonneg (sub_nonneg.mpr hp) (sub_nonneg.mpr h0.2)]
  | cons o rest ih =>
    obtain ⟨ξ, d⟩ := o
    intro v v0 p A r hp ho hs h0 h
    simp only [simplexWalkJumps] at h
    obtain ⟨v1, h1, h⟩ := Res.bind_eq_ok.mp h
    rw [List.pairwise_cons] at hs
    have hξ := ho (ξ, d) (by simp)
    rw [show A + (1 - p) * v0 + (1 - ξ) * (v1 - v0) = A + (ξ - p) * v0 + (1 - ξ) * v1 by ring] at h
    obtain ⟨a, b⟩ := ih _ v1 ξ _ r hξ.2 (fun o h => ⟨hs.1 o h, (ho o (by simp [h])).2⟩) hs.2 (hv _ (getFValJumps_mem h1)) h
    constructor <;> nlinarith [mul_nonneg (sub_nonneg.mpr hξ.1) (sub_nonneg.mpr h0.1), mul_nonneg (sub_nonneg.mpr hξ.1) (sub_nonneg.mpr h0.2)]

/-- C186, any number of axes: when an interpolation completes, its value is between the least and the greatest of the values of the table. -/
theorem C186_bounds {grids : List (List K)} (hg : Axes grids) {values : List K} {t : NDInterp K} (ht : newJumps grids values = .ok t) {m M : K}
    (hv : ∀ u ∈ values, m ≤ u ∧ u ≤ M) {x : List K} (hx : x.length = grids.length) :
    (∀ r, interpMultilinearJumps t x = .ok r → m ≤ r ∧ r ≤ M) ∧
    ∀ sort : List (K × Nat) → List (K × Nat), IsSort sort → ∀ r, interpSimplexJumps sort t x = .ok r → m ≤ r ∧ r ≤ M := by
  obtain rfl : (⟨grids, values⟩ : NDInterp K) = t := by
    unfold newJumps at ht
    split at ht
    · cases ht
    · exact Res.ok.inj ht
  obtain ⟨cs, ys, ws, he, hr⟩ := axes_res hg.nonempty hg.increasing hx
  have hfr := hr.frac
  constructor
  · intro r h
    unfold interpMultilinearJumps at h
    simp only [he, Res.ok_bind] at h
    obtain ⟨f, h1, h⟩ := Res.bind_eq_ok.mp h
    refine unitcube_bounds ys f r hfr ?_ h
    refine forN_all (P := fun f => ∀ u ∈ f, m ≤ u ∧ u ≤ M) ?_ _ _ _ _ (by simp) h1
    intro i s s' hs hs'
    obtain ⟨y, h1, h2⟩ := Res.bind_eq_ok.mp hs'
    cases h2
    intro u hu
    rcases List.mem_append.mp hu with hu | hu
    · exact hs u hu
    · rw [List.mem_singleton.mp hu]
      exact hv _ (getFValJumps_mem h1)
  · intro sort hsort r h
    unfold interpSimplexJumps at h
    simp only [he, Res.ok_bind] at h
    obtain ⟨v0, h1, h⟩ := Res.bind_eq_ok.mp h
    obtain ⟨hperm, hsrt⟩ := hsort ys.zipIdx
    have := walkJumps_bounds (t := ⟨grids, values⟩) (m := m) (M := M) hv (sort ys.zipIdx) _ v0 0 0 r zero_le_one (fun o ho =>
      hfr o.1 (List.mem_of_getElem? (List.mem_zipIdx_iff_getElem?.mp (hperm.mem_iff.mp ho)))) hsrt (hv _ (getFValJumps_mem h1)) (by simpa using h)
    simpa using this

/-- The coordinate `x` is between the nodes `i` and `i + 1`. -/
theorem axis_between {g : List K} (hinc : g.Pairwise (· < ·)) {i : Nat} {a b x : K} (ha : g[i]? = some a) (hb : g[i + 1]? = some b) (hx0 : a ≤ x) (hx1 : x < b) :
    axis g x = .ok ((i : Int), (x - a) / (b - a)) := by
  have hl := (List.getElem?_eq_some_iff.mp hb).1
  obtain ⟨c, y, lo, hi, h, hr⟩ := axis_res (by rintro rfl; simp at hl) hinc x
  rw [h]
  cases hr with
  | below a' h0 h1 => exact absurd (getElem?_le hinc h0 ha (Nat.zero_le _)) (not_le.mpr (lt_of_le_of_lt hx0 h1))
  | above b' h0 h1 => exact absurd (getElem?_le hinc hb h0 (by omega)) (not_le.mpr (lt_of_le_of_lt h1 hx1))
  | inside c a' b' h0 h1 h2 h3 =>
    obtain rfl : lo = i := by
      rcases Nat.lt_trichotomy lo i with hlt | heq | hgt
      · exact absurd (getElem?_le hinc h1 ha hlt) (not_le.mpr (lt_of_le_of_lt hx0 h3))
      · exact heq
      · exact absurd (getElem?_le hinc hb h0 hgt) (not_le.mpr (lt_of_le_of_lt h2 hx1))
    rw [h0] at ha
    rw [h1] at hb
    cases ha
    cases hb
    rfl

theorem getFValJumps_two {g h f : List K} {i j : Nat} {p q : Int} {y : K} (hi : i + 1 < g.length) (hj : j + 1 < h.length) (hp : p = 0 ∨ p = 1) (hq : q = 0 ∨ q = 1)
    (hf : f[(2 * i + 1 + p.toNat) * (2 * h.length) + (2 * j + 1 + q.toNat)]? = some y) : getFValJumps ⟨[g, h], f⟩ [(i : Int), (j : Int)] [p, q] = .ok y := by
  unfold getFValJumps mdRead jumpExtents
  have e1 : ¬ (i : Int) < 0 := by omega
  have e2 : ¬ (g.length : Int) - 1 ≤ i := by omega
  have e3 : ¬ (j : Int) < 0 := by omega
  have e4 : ¬ (h.length : Int) - 1 ≤ j := by omega
  simp only [fIndexJumps, List.map_cons, List.map_nil, mdOffset, if_neg e1, if_neg e2, if_neg e3, if_neg e4]
  rw [if_pos ⟨by omega, by push_cast; omega⟩, if_pos ⟨by omega, by push_cast; omega⟩]
  have hidx : (0 * (g.length * 2) + (1 + 2 * (i : Int) + p).toNat) * (h.length * 2) + (1 + 2 * (j : Int) + q).toNat
      = (2 * i + 1 + p.toNat) * (2 * h.length) + (2 * j + 1 + q.toNat) := by
    rw [show (1 + 2 * (i : Int) + p).toNat = 2 * i + 1 + p.toNat by omega, show (1 + 2 * (j : Int) + q).toNat = 2 * j + 1 + q.toNat by omega]
    ring
  simp only [Res.ok_bind, hidx]
  simp [vIdx, hf]

/-- C186 with two axes (in part: between nodes where the table has its four values): the value of `InterpMultilinear` is the bilinear interpolant of the limits at the four corners of
the cell, from inside it, and that of `InterpSimplex` the affine interpolant on the triangle that has the point. Missing: the points near the last nodes, see `C186_several_axes`. -/
theorem C186_two_axes_partial {g h values : List K} (hg : Axes [g, h]) {t : NDInterp K} (ht : newJumps [g, h] values = .ok t) {i j : Nat} {a a' b b' x y : K}
    (ha : g[i]? = some a) (ha' : g[i + 1]? = some a') (hb : h[j]? = some b) (hb' : h[j + 1]? = some b') (hx0 : a ≤ x) (hx1 : x < a') (hy0 : b ≤ y) (hy1 : y < b')
    {f00 f01 f10 f11 s u : K} (h00 : values[(2 * i + 1) * (2 * h.length) + (2 * j + 1)]? = some f00)
    (h01 : values[(2 * i + 1) * (2 * h.length) + (2 * (j + 1))]? = some f01) (h10 : values[(2 * (i + 1)) * (2 * h.length) + (2 * j + 1)]? = some f10)
    (h11 : values[(2 * (i + 1)) * (2 * h.length) + (2 * (j + 1))]? = some f11) (hs : s = (x - a) / (a' - a)) (hu : u = (y - b) / (b' - b)) :
    interpMultilinearJumps t [x, y] = .ok ((1 - s) * ((1 - u) * f00 + u * f01) + s * ((1 - u) * f10 + u * f11)) ∧
    ∀ sort : List (K × Nat) → List (K × Nat), IsSort sort → interpSimplexJumps sort t [x, y] =
      .ok (if u ≤ s then f00 + s * (f10 - f00) + u * (f11 - f10) else f00 + u * (f01 - f00) + s * (f11 - f01)) := by
  obtain rfl : (⟨[g, h], values⟩ : NDInterp K) = t := by
    unfold newJumps at ht
    split at ht
    · cases ht
    · exact Res.ok.inj ht
  have hi := (List.getElem?_eq_some_iff.mp ha').1
  have hj := (List.getElem?_eq_some_iff.mp hb').1
  have e1 := axis_between (hg.increasing g (by simp)) ha ha' hx0 hx1
  have e2 := axis_between (hg.increasing h (by simp)) hb hb' hy0 hy1
  rw [← hs] at e1
  rw [← hu] at e2
  have he : axes [g, h] [x, y] = .ok ([(i : Int), (j : Int)], [s, u]) := by
    simp only [axes, e1, e2, Res.ok_bind, Res.pure_eq]
  have g00 := getFValJumps_two (p := 0) (q := 0) hi hj (.inl rfl) (.inl rfl) h00
  have g01 := getFValJumps_two (p := 0) (q := 1) hi hj (.inl rfl) (.inr rfl) h01
  have g10 := getFValJumps_two (p := 1) (q := 0) hi hj (.inr rfl) (.inl rfl) h10
  have g11 := getFValJumps_two (p := 1) (q := 1) hi hj (.inr rfl) (.inr rfl) h11
  constructor
  · unfold interpMultilinearJumps
    simp only [he, Res.ok_bind]
    have hloop := forRange_ok (lo := 0) (hi := 1 <<< [g, h].length) (Nat.zero_le _)
      (f := fun w l => do
        let z ← getFValJumps (⟨[g, h], values⟩ : NDInterp K) [(i : Int), (j : Int)] (vertexBits [g, h].length w)
        return l ++ [z]) (fun k => [f00, f01, f10, f11].take k) (by
          intro k _ hk
          have hk : k < 4 := by simpa using hk
          interval_cases k
          · rw [show vertexBits [g, h].length 0 = [0, 0] from by simp [vertexBits] <;> decide, g00]; rfl
          · rw [show vertexBits [g, h].length 1 = [0, 1] from by simp [vertexBits] <;> decide, g01]; rfl
          · rw [show vertexBits [g, h].length 2 = [1, 0] from by simp [vertexBits] <;> decide, g10]; rfl
          · rw [show vertexBits [g, h].length 3 = [1, 1] from by simp [vertexBits] <;> decide, g11]; rfl)
    simp only [List.take_zero] at hloop
    rw [hloop, Res.ok_bind]
    show unitcube [f00, f01, f10, f11] [s, u] = _
    simp [unitcube, vIdx]
    ring
  · intro sort hsort
    unfold interpSimplexJumps
    simp only [he, Res.ok_bind, List.length_cons, List.length_nil, List.zipIdx_cons, List.zipIdx_nil]
    rw [show List.replicate (0 + 1 + 1) (1 : Int) = [1, 1] from rfl, g11, Res.ok_bind]
    obtain ⟨hperm, hsrt⟩ := hsort [(s, 0), (u, 0 + 1)]
    have cases2 : sort [(s, 0), (u, 0 + 1)] = [(s, 0), (u, 1)] ∨ sort [(s, 0), (u, 0 + 1)] = [(u, 1), (s, 0)] := by
      have := List.mem_permutations.mpr hperm
      simpa [List.permutations, List.permutationsAux, List.permutationsAux.rec] using this
    rcases cases2 with hc | hc
    · rw [hc] at hsrt ⊢
      have hle : s ≤ u := by simpa using hsrt
      simp only [simplexWalkJumps, List.modify_zero_cons, List.modify_succ_cons, g01, g00, sub_self, Res.ok_bind]
      congr 1
      split
      · have : s = u := le_antisymm hle ‹_›
        rw [this]
        ring
      · ring
    · rw [hc] at hsrt ⊢
      have hle : u ≤ s := by simpa using hsrt
      simp only [simplexWalkJumps, List.modify_zero_cons, List.modify_succ_cons, g10, g00, sub_self, Res.ok_bind, if_pos hle]
      congr 1
      ring

/-- Two axes of three nodes: in the first cell the table of 18 values has all that is needed. -/
example : ∃ t, newJumps [[0, 1, 2], [0, 1, 2]] ((List.range 18).map fun n => (n : ℚ)) = .ok t ∧ interpMultilinearJumps t [1 / 2, 1 / 4] = .ok (41 / 4) := by
  have ht : newJumps [[0, 1, 2], [0, 1, 2]] ((List.range 18).map fun n => (n : ℚ)) = .ok ⟨[[0, 1, 2], [0, 1, 2]], (List.range 18).map fun n => (n : ℚ)⟩ := rfl
  have hg : Axes [[0, 1, 2], [0, 1, (2 : ℚ)]] := ⟨by simp, by simp, by norm_num⟩
  refine ⟨_, ht, ?_⟩
  rw [(C186_two_axes_partial hg ht (i := 0) (j := 0) (a := 0) (a' := 1) (b := 0) (b' := 1) (x := 1 / 2) (y := 1 / 4) rfl rfl rfl rfl (by norm_num) (by norm_num) (by norm_num)
    (by norm_num) (f00 := 7) (f01 := 8) (f10 := 13) (f11 := 14) rfl rfl rfl rfl rfl rfl).1]
  norm_num

end MU
